import Verif.Spec.SiftFiles
import Verif.Props.Sha256
import Verif.Props.Str
import Verif.Props.Keypoint
import Verif.Lemmas.Sample

/-!
# Files of SIFT keypoints (C84)
-/

namespace Nx

/-! ## Arrays and files -/

theorem xreadInt_leInt32 (n : Nat) (h : n < 2147483648) (st : Bytes) : xreadInt (leInt32 n ++ st) = .ok ((n : Int), st) := by
  unfold xreadInt
  rw [fread1_append st (leInt32_length _)]
  simp only
  rw [intOfLe32_leInt32 (by omega) (by omega)]

theorem xreadMem_ok (mem a st : Bytes) (k : Nat) (ha : a.length = k) (hm : k ≤ mem.length) :
    xreadMem mem k (a ++ st) = .ok (a ++ mem.drop k, st) := by
  unfold xreadMem
  rw [if_pos (by rw [List.length_append]; omega), if_pos hm, List.take_left' ha, List.drop_left' ha]

theorem reallocMem_length {α : Type} (junk : Nat → α) (mem : List α) (len : Nat) (h : mem.length ≤ len) :
    (reallocMem junk mem len).length = len := by
  unfold reallocMem
  simp only [List.length_append, List.length_take, List.length_map, List.length_range]
  omega

theorem KeyBuf.Holds.lengths {b : KeyBuf} {n : Nat} {K D : Bytes} (h : b.Holds n K D) :
    K.length = n * 48 ∧ D.length = n * 128 := by
  obtain ⟨⟨h1, h2⟩, h3, rfl, rfl⟩ := h
  rw [List.length_take, List.length_take]
  have := Nat.mul_le_mul_right 48 h3
  have := Nat.mul_le_mul_right 128 h3
  omega

/-- Writing to the cache. -/
theorem writeKeyCache_ok {b : KeyBuf} {n : Nat} {K D : Bytes} (h : b.Holds n K D) (hn : n * 128 ≤ 2147483647) :
    writeKeyCache n b = .ok (leInt32 n ++ K ++ D) := by
  obtain ⟨⟨h1, h2⟩, h3, rfl, rfl⟩ := h
  have := Nat.mul_le_mul_right 48 h3
  have := Nat.mul_le_mul_right 128 h3
  unfold writeKeyCache xwriteMem
  rw [if_neg (by omega), if_pos (by omega), if_pos (by omega)]
  rfl

/-- C84: a file of the cache is read back completely into arrays of any size. -/
theorem c84_read_back (junk : Nat → Byte) (n : Nat) (K D : Bytes) (buf : KeyBuf) (hb : buf.Ok) (hK : K.length = n * 48)
    (hD : D.length = n * 128) (hn : n * 128 ≤ 2147483647) :
    ∃ buf', readKeyCache junk (leInt32 n ++ K ++ D) buf = .ok (n, buf') ∧ buf'.Holds n K D ∧
      buf'.max = max buf.max n := by
  obtain ⟨b1, b2⟩ := hb
  unfold readKeyCache
  rw [List.append_assoc, xreadInt_leInt32 n (by omega), Res.ok_bind]
  simp only
  rw [if_neg (by omega), if_neg (by omega), Int.toNat_natCast]
  by_cases hm : buf.max < n
  · rw [if_pos hm]
    have l1 := reallocMem_length junk buf.keys (n * 48) (by omega)
    have l2 := reallocMem_length junk buf.desc (n * 128) (by omega)
    simp only
    rw [xreadMem_ok _ _ _ _ hK (by omega), Res.ok_bind]
    simp only
    rw [← List.append_nil D, xreadMem_ok _ _ _ _ hD (by omega), Res.ok_bind]
    refine ⟨_, rfl, ⟨⟨?_, ?_⟩, ?_, ?_, ?_⟩, ?_⟩
    · simp only [List.length_append, List.length_drop]; omega
    · simp only [List.length_append, List.length_drop]; omega
    · exact Nat.le_refl _
    · exact List.take_left' hK
    · rw [List.append_nil]; exact List.take_left' hD
    · simp only; omega
  · rw [if_neg hm]
    have := Nat.mul_le_mul_right 48 (Nat.not_lt.mp hm)
    have := Nat.mul_le_mul_right 128 (Nat.not_lt.mp hm)
    rw [xreadMem_ok _ _ _ _ hK (by omega), Res.ok_bind]
    simp only
    rw [← List.append_nil D, xreadMem_ok _ _ _ _ hD (by omega), Res.ok_bind]
    refine ⟨_, rfl, ⟨⟨?_, ?_⟩, ?_, ?_, ?_⟩, ?_⟩
    · simp only [List.length_append, List.length_drop]; omega
    · simp only [List.length_append, List.length_drop]; omega
    · exact Nat.not_lt.mp hm
    · exact List.take_left' hK
    · rw [List.append_nil]; exact List.take_left' hD
    · simp only; omega

/-! ## The path -/

theorem imageMsgs_ok {img : ByteImage} (h : img.Readable) (param : Bytes) :
    imageMsgs img param = .ok (img.rows ++ [param]) := by
  obtain ⟨ms, e, hms⟩ := forLoop_spec
    (P := fun i (ms : List Bytes) => ms = (List.range i).map (fun y => (img.data.drop (y * img.stride)).take img.width))
    (n := img.height) (body := fun i ms => do
      let m ← rowMsg img i
      pure (ms ++ [m])) (i0 := 0) (s := ([] : List Bytes)) (by omega) rfl (by
      rintro i ms _ hi rfl
      unfold rowMsg
      rw [if_pos h.1, if_pos (h.2 i hi)]
      exact ⟨_, rfl, by rw [List.range_succ, List.map_append]; rfl⟩)
  unfold imageMsgs
  rw [e, hms]
  rfl

theorem fips_sha256_length (m : Bytes) : (Fips.sha256 m).length = 32 := by
  have toBe_length : ∀ k v, (Fips.toBe k v).length = k := by
    intro k v
    unfold Fips.toBe
    simp
  unfold Fips.sha256
  simp [toBe_length]

theorem not_fillsBlocks {msgs : List Bytes} (h : msgs.flatten.length % 64 ≠ 0) : ¬ FillsBlocks msgs := fun g => h g.2.1

/-- The path depends on the digest only, in a one to one way. -/
theorem cachePath_ok (block0 : Bytes) (hb : block0.length = 64) (dir ext : Bytes) (msgs : List Bytes) (h0 : msgs ≠ [])
    (h : FileHashable msgs.flatten) :
    ∃ t, hashToStr (Fips.sha256 msgs.flatten).length (Fips.sha256 msgs.flatten) = .ok t ∧
      cachePath block0 dir ext msgs = .ok (dir ++ bytesOf "/" ++ t ++ ext) := by
  obtain ⟨t, e, _⟩ := c09_hash_text (Fips.sha256 msgs.flatten)
  refine ⟨t, e, ?_⟩
  unfold cachePath
  rw [c11_sha256_multi_partial block0 hb msgs h0 h.2 (not_fillsBlocks h.1), Res.ok_bind]
  rw [fips_sha256_length] at e
  rw [e]
  rfl

/-- The path of a message. -/
def keyPath (dir ext m : Bytes) : Bytes :=
  match hashToStr 32 (Fips.sha256 m) with
  | .ok t => dir ++ bytesOf "/" ++ t ++ ext
  | _ => []

theorem cachePath_eq (block0 : Bytes) (hb : block0.length = 64) (dir ext : Bytes) (msgs : List Bytes) (h0 : msgs ≠ [])
    (h : FileHashable msgs.flatten) : cachePath block0 dir ext msgs = .ok (keyPath dir ext msgs.flatten) := by
  obtain ⟨t, e, e2⟩ := cachePath_ok block0 hb dir ext msgs h0 h
  rw [fips_sha256_length] at e
  rw [e2, keyPath, e]

theorem keyPath_inj {dir ext m m' : Bytes} (h : keyPath dir ext m = keyPath dir ext m') : Fips.sha256 m = Fips.sha256 m' := by
  obtain ⟨t, e, _⟩ := c09_hash_text (Fips.sha256 m)
  obtain ⟨t', e', _⟩ := c09_hash_text (Fips.sha256 m')
  have e1 := e
  have e2 := e'
  rw [fips_sha256_length] at e e'
  rw [keyPath, keyPath, e, e'] at h
  simp only [List.append_assoc, List.append_cancel_left_eq, List.append_cancel_right_eq] at h
  subst h
  exact c09_hash_text_injective _ _ _ e1 e2

theorem keyPath_congr {dir ext m m' : Bytes} (h : Fips.sha256 m = Fips.sha256 m') : keyPath dir ext m = keyPath dir ext m' := by
  unfold keyPath
  rw [h]

/-! ## Calls with a cache -/

variable {compute : ByteImage → Bytes → KeyBuf → Res (Nat × KeyBuf)} {Good : ByteImage → Bytes → Nat → Bytes → Bytes → Prop}

theorem siftWithCache_path (compute : ByteImage → Bytes → KeyBuf → Res (Nat × KeyBuf)) (block0 : Bytes) (hb : block0.length = 64)
    (junk : Nat → Byte) (dir : Bytes) (img : ByteImage) (param : Bytes) (buf : KeyBuf) (fs : Files) (hi : img.Readable)
    (hh : FileHashable (img.message param)) :
    siftWithCache compute block0 junk dir img param buf fs =
      match fs (keyPath dir (bytesOf ".sift") (img.message param)) with
      | some content => do
        let (n, buf) ← readKeyCache junk content buf
        pure (n, buf, fs)
      | none => (do
        let (n, buf) ← compute img param buf
        let content ← writeKeyCache n buf
        pure (n, buf, fs.put (keyPath dir (bytesOf ".sift") (img.message param)) content)) :=
  by
  have hf : (img.rows ++ [param]).flatten = img.message param := by
    simp [ByteImage.message]
  unfold siftWithCache
  rw [imageMsgs_ok hi, Res.ok_bind, cachePath_eq block0 hb dir _ _ (by simp) (by rw [hf]; exact hh), Res.ok_bind, hf]
  cases fs (keyPath dir (bytesOf ".sift") (img.message param)) <;> rfl

/-- C84: without a file the result is that of the detector; it is stored under the
digest of the rows and the parameters, and no other file changes. -/
theorem c84_miss (hd : Detects compute Good) (block0 : Bytes) (hb : block0.length = 64) (junk : Nat → Byte) (dir : Bytes)
    (c : SiftCall) (hc : c.Ok) (fs : Files) (hf : fs (keyPath dir (bytesOf ".sift") (c.img.message c.param)) = none) :
    ∃ n buf K D, compute c.img c.param c.buf = .ok (n, buf) ∧ buf.Holds n K D ∧ Good c.img c.param n K D ∧ n * 128 ≤ 2147483647 ∧
      siftWithCache compute block0 junk dir c.img c.param c.buf fs =
        .ok (n, buf, fs.put (keyPath dir (bytesOf ".sift") (c.img.message c.param)) (leInt32 n ++ K ++ D)) := by
  obtain ⟨n, buf, K, D, e, hh, hn, hg⟩ := hd c.img c.param c.buf hc.1 hc.2.1
  refine ⟨n, buf, K, D, e, hh, hg, hn, ?_⟩
  rw [siftWithCache_path compute block0 hb junk dir _ _ _ fs hc.1 hc.2.2.2, hf]
  simp only
  rw [e, Res.ok_bind]
  simp only
  rw [writeKeyCache_ok hh hn]
  rfl

/-- C84: with a file the detector is not run, the result is what the file contains, and
no file changes. -/
theorem c84_hit (compute : ByteImage → Bytes → KeyBuf → Res (Nat × KeyBuf)) (block0 : Bytes) (hb : block0.length = 64)
    (junk : Nat → Byte) (dir : Bytes) (c : SiftCall) (hc : c.Ok) (fs : Files) (n : Nat) (K D : Bytes) (hK : K.length = n * 48)
    (hD : D.length = n * 128) (hn : n * 128 ≤ 2147483647)
    (hf : fs (keyPath dir (bytesOf ".sift") (c.img.message c.param)) = some (leInt32 n ++ K ++ D)) :
    ∃ buf, siftWithCache compute block0 junk dir c.img c.param c.buf fs = .ok (n, buf, fs) ∧ buf.Holds n K D := by
  obtain ⟨buf', e, hh, _⟩ := c84_read_back junk n K D c.buf hc.2.1 hK hD hn
  refine ⟨buf', ?_, hh⟩
  rw [siftWithCache_path compute block0 hb junk dir _ _ _ fs hc.1 hc.2.2.2, hf]
  simp only
  rw [e]
  rfl

/-- What the files in the cache contain after the calls in `past`. -/
def CacheInv (Good : ByteImage → Bytes → Nat → Bytes → Bytes → Prop) (dir : Bytes) (past : List SiftCall) (fs : Files) : Prop :=
  ∀ m content, fs (keyPath dir (bytesOf ".sift") m) = some content →
    ∃ c ∈ past, ∃ (n : Nat) (K D : Bytes), Fips.sha256 (c.img.message c.param) = Fips.sha256 m ∧ content = leInt32 n ++ K ++ D ∧
      K.length = n * 48 ∧ D.length = n * 128 ∧ n * 128 ≤ 2147483647 ∧ Good c.img c.param n K D

theorem runCalls_spec (hd : Detects compute Good) (block0 : Bytes) (hb : block0.length = 64) (junk : Nat → Byte) (dir : Bytes)
    (all : List SiftCall)
    (hinj : ∀ c ∈ all, ∀ c' ∈ all, Fips.sha256 (c.img.message c.param) = Fips.sha256 (c'.img.message c'.param) →
      ∀ n K D, Good c.img c.param n K D → Good c'.img c'.param n K D)
    (cs : List SiftCall) :
    ∀ (past : List SiftCall) (fs : Files), (∀ c ∈ past, c ∈ all) → (∀ c ∈ cs, c ∈ all ∧ c.Ok) → CacheInv Good dir past fs →
      ∃ (rs : List (Nat × KeyBuf)) (fs' : Files), runCalls compute block0 junk dir cs fs = .ok (rs, fs') ∧ rs.length = cs.length ∧
        ∀ (i : Nat) c r, cs[i]? = some c → rs[i]? = some r → ∃ K D, r.2.Holds r.1 K D ∧ Good c.img c.param r.1 K D := by
  induction cs with
  | nil => exact fun past fs _ _ _ => ⟨[], fs, rfl, rfl, by simp⟩
  | cons c cs ih =>
    intro past fs hp hcs hinv
    obtain ⟨hca, hc⟩ := hcs c (by simp)
    have key : ∃ n buf fs1 K D, siftWithCache compute block0 junk dir c.img c.param c.buf fs = .ok (n, buf, fs1) ∧
        buf.Holds n K D ∧ Good c.img c.param n K D ∧ CacheInv Good dir (c :: past) fs1 := by
      cases hf : fs (keyPath dir (bytesOf ".sift") (c.img.message c.param)) with
      | none =>
        obtain ⟨n, buf, K, D, _, hh, hg, hn, e⟩ := c84_miss hd block0 hb junk dir c hc fs hf
        refine ⟨n, buf, _, K, D, e, hh, hg, ?_⟩
        intro m content hm
        unfold Files.put at hm
        split at hm
        · rename_i hk
          cases hm
          exact ⟨c, by simp, n, K, D, (keyPath_inj hk).symm, rfl, hh.lengths.1, hh.lengths.2, hn, hg⟩
        · obtain ⟨c', h1, h2⟩ := hinv m content hm
          exact ⟨c', List.mem_cons_of_mem _ h1, h2⟩
      | some content =>
        obtain ⟨c', h1, n, K, D, h2, rfl, h4, h5, h6, h7⟩ := hinv _ _ hf
        obtain ⟨buf, e, hh⟩ := c84_hit compute block0 hb junk dir c hc fs n K D h4 h5 h6 hf
        refine ⟨n, buf, fs, K, D, e, hh, hinj c' (hp c' h1) c hca h2 n K D h7, ?_⟩
        intro m content hm
        obtain ⟨c', h1, h2⟩ := hinv m content hm
        exact ⟨c', List.mem_cons_of_mem _ h1, h2⟩
    obtain ⟨n, buf, fs1, K, D, e, hh, hg, hinv1⟩ := key
    obtain ⟨rs, fs', e', hl, hr⟩ := ih (c :: past) fs1 (by
      intro x hx
      rcases List.mem_cons.mp hx with rfl | hx
      · exact hca
      · exact hp x hx) (fun x hx => hcs x (List.mem_cons_of_mem _ hx)) hinv1
    refine ⟨(n, buf) :: rs, fs', ?_, by simp [hl], ?_⟩
    · rw [runCalls, e, Res.ok_bind]
      simp only
      rw [e']
      rfl
    · intro i c' r h1 h2
      cases i with
      | zero =>
        simp only [List.getElem?_cons_zero, Option.some.injEq] at h1 h2
        subst h1 h2
        exact ⟨K, D, hh, hg⟩
      | succ i =>
        simp only [List.getElem?_cons_succ] at h1 h2
        exact hr i c' r h1 h2

/-- C84: in any sequence of calls that starts without files, each call returns a good
result for its own image and parameters, provided that calls with the same digest have the same
good results. Missing: the digest is one of the rows without the size of the image, so that it
is the same for some different images (`c84_other_size`). -/
theorem c84_history_partial (hd : Detects compute Good) (block0 : Bytes) (hb : block0.length = 64) (junk : Nat → Byte) (dir : Bytes)
    (cs : List SiftCall) (hok : ∀ c ∈ cs, c.Ok) (fs : Files) (hfs : ∀ m, fs (keyPath dir (bytesOf ".sift") m) = none)
    (hinj : ∀ c ∈ cs, ∀ c' ∈ cs, Fips.sha256 (c.img.message c.param) = Fips.sha256 (c'.img.message c'.param) →
      ∀ n K D, Good c.img c.param n K D → Good c'.img c'.param n K D) :
    ∃ (rs : List (Nat × KeyBuf)) (fs' : Files), runCalls compute block0 junk dir cs fs = .ok (rs, fs') ∧ rs.length = cs.length ∧
      ∀ (i : Nat) c r, cs[i]? = some c → rs[i]? = some r → ∃ K D, r.2.Holds r.1 K D ∧ Good c.img c.param r.1 K D :=
  runCalls_spec hd block0 hb junk dir cs hinj cs [] fs (by simp) (fun c hc => ⟨hc, hok c hc⟩)
    (fun m content h => by rw [hfs m] at h; cases h)

/-- C84: calling again with the same image and parameters gives the same keypoints and descriptors,
whatever the detector would do then and whatever arrays are given. -/
theorem c84_again (hd : Detects compute Good) (compute' : ByteImage → Bytes → KeyBuf → Res (Nat × KeyBuf)) (block0 : Bytes)
    (hb : block0.length = 64) (junk : Nat → Byte) (dir : Bytes) (c c' : SiftCall) (hc : c.Ok) (hc' : c'.Ok) (fs : Files)
    (hm : c'.img.message c'.param = c.img.message c.param)
    (hf : fs (keyPath dir (bytesOf ".sift") (c.img.message c.param)) = none) :
    ∃ n buf fs' K D buf', siftWithCache compute block0 junk dir c.img c.param c.buf fs = .ok (n, buf, fs') ∧ buf.Holds n K D ∧
      Good c.img c.param n K D ∧
      siftWithCache compute' block0 junk dir c'.img c'.param c'.buf fs' = .ok (n, buf', fs') ∧ buf'.Holds n K D := by
  obtain ⟨n, buf, K, D, _, hh, hg, hn, e⟩ := c84_miss hd block0 hb junk dir c hc fs hf
  obtain ⟨buf', e', hh'⟩ := c84_hit compute' block0 hb junk dir c' hc'
    (fs.put (keyPath dir (bytesOf ".sift") (c.img.message c.param)) (leInt32 n ++ K ++ D)) n K D hh.lengths.1 hh.lengths.2 hn
    (by rw [hm]; exact if_pos rfl)
  exact ⟨n, buf, _, K, D, buf', e, hh, hg, e', hh'⟩

/-- C84, finding: the size of the image is not part of the digest: after a call with an image,
a call with another image that has the same bytes in rows of another length returns the keypoints of
the first image. -/
theorem c84_other_size (hd : Detects compute Good) (block0 : Bytes) (hb : block0.length = 64) (junk : Nat → Byte) (dir : Bytes)
    (c c' : SiftCall) (hc : c.Ok) (hc' : c'.Ok) (fs : Files) (hp : c'.param = c.param)
    (hm : c'.img.rows.flatten = c.img.rows.flatten)
    (hf : fs (keyPath dir (bytesOf ".sift") (c.img.message c.param)) = none) :
    ∃ n n' buf buf' fs' K D, runCalls compute block0 junk dir [c, c'] fs = .ok ([(n, buf), (n', buf')], fs') ∧
      n' = n ∧ buf'.Holds n K D ∧ Good c.img c.param n K D := by
  obtain ⟨n, buf, fs', K, D, buf', e, hh, hg, e', hh'⟩ := c84_again hd compute block0 hb junk dir c c' hc hc' fs
    (by rw [ByteImage.message, ByteImage.message, hm, hp]) hf
  refine ⟨n, n, buf, buf', fs', K, D, ?_, rfl, hh', hg⟩
  rw [runCalls, e, Res.ok_bind]
  simp only
  rw [runCalls, e', Res.ok_bind]
  rfl

/-- C84, finding: if the bytes of the image and the 32 bytes of parameters fill whole blocks, the array of
lengths is read out of bounds. -/
theorem c84_blocks (compute : ByteImage → Bytes → KeyBuf → Res (Nat × KeyBuf)) (block0 : Bytes) (hb : block0.length = 64)
    (junk : Nat → Byte) (dir : Bytes) (img : ByteImage) (param : Bytes) (buf : KeyBuf) (fs : Files) (hi : img.Readable)
    (hp : param ≠ []) (h64 : (img.message param).length % 64 = 0) (hl : (img.message param).length < 2 ^ 61) :
    siftWithCache compute block0 junk dir img param buf fs = .ub := by
  have hf : (img.rows ++ [param]).flatten = img.message param := by
    simp [ByteImage.message]
  have hpos : 0 < (img.message param).length := by
    have : 0 < param.length := List.length_pos_iff.mpr hp
    rw [ByteImage.message, List.length_append]
    omega
  unfold siftWithCache cachePath
  rw [imageMsgs_ok hi, Res.ok_bind, c11_fills_blocks_ub block0 hb _ (by rw [hf]; exact hl)
    ⟨by rw [hf]; exact hpos, by rw [hf]; exact h64, param, by simp, hp⟩]
  rfl

/-- C84, finding: images of `float` samples are never hashed properly. -/
theorem c84_float (compute : ByteImage → Bytes → KeyBuf → Res (Nat × KeyBuf)) (block0 : Bytes) (junk : Nat → Byte) (dir : Bytes)
    (img : ByteImage) (param : Bytes) (buf : KeyBuf) (fs : Files) (h : img.uchar = false) (hh : 0 < img.height) :
    siftWithCache compute block0 junk dir img param buf fs = .ub := by
  unfold siftWithCache imageMsgs
  rw [forLoop_ub hh]
  · rfl
  · unfold rowMsg
    rw [if_neg (by simp [h])]
    rfl

/-! ## The cache of matches -/

/-- The arrays contain what their number says. -/
def RawKeys.Ok (a : RawKeys) : Prop := a.n * 48 ≤ a.keys.length ∧ a.n * 128 ≤ a.desc.length

/-- What the digest is computed from. -/
def matchMessage (a b : RawKeys) (thr : Bytes) : Bytes :=
  a.keys.take (a.n * 48) ++ a.desc.take (a.n * 128) ++ b.keys.take (b.n * 48) ++ b.desc.take (b.n * 128) ++ thr

theorem matchWithCache_path (matcher : RawKeys → RawKeys → Bytes → Bytes → Res (Nat × Bytes)) (block0 : Bytes)
    (hb : block0.length = 64) (dir : Bytes) (a b : RawKeys) (ha : a.Ok) (hb' : b.Ok) (thr corr : Bytes) (fs : Files)
    (hh : FileHashable (matchMessage a b thr)) :
    matchWithCache matcher block0 dir a b thr corr fs =
      match fs (keyPath dir (bytesOf ".sift_matches") (matchMessage a b thr)) with
      | some content => (do
        let (n, st) ← xreadInt content
        if n < 0 then .ub
        else do
          let (corr, _) ← xreadMem corr (n.toNat * 56) st
          pure (n.toNat, corr, fs))
      | none => (do
        let (n, corr) ← matcher a b thr corr
        let cs ← xwriteMem corr (n * 56)
        pure (n, corr, fs.put (keyPath dir (bytesOf ".sift_matches") (matchMessage a b thr)) (leInt32 n ++ cs))) := by
  have em : matchMsgs a b thr = .ok [a.keys.take (a.n * 48), a.desc.take (a.n * 128), b.keys.take (b.n * 48),
      b.desc.take (b.n * 128), thr] := by
    unfold matchMsgs xwriteMem
    rw [if_pos ha.1, if_pos ha.2, if_pos hb'.1, if_pos hb'.2]
    rfl
  have hf : [a.keys.take (a.n * 48), a.desc.take (a.n * 128), b.keys.take (b.n * 48), b.desc.take (b.n * 128), thr].flatten
      = matchMessage a b thr := by
    simp [matchMessage]
  unfold matchWithCache
  rw [em, Res.ok_bind, cachePath_eq block0 hb dir _ _ (by simp) (by rw [hf]; exact hh), Res.ok_bind, hf]
  cases fs (keyPath dir (bytesOf ".sift_matches") (matchMessage a b thr)) <;> rfl

/-- C84: reading matches from the cache: the result is what the file contains, if the array is long enough;
otherwise the array is overrun. -/
theorem c84_match_hit (matcher : RawKeys → RawKeys → Bytes → Bytes → Res (Nat × Bytes)) (block0 : Bytes)
    (hb : block0.length = 64) (dir : Bytes) (a b : RawKeys) (ha : a.Ok) (hb' : b.Ok) (thr corr : Bytes) (fs : Files)
    (hh : FileHashable (matchMessage a b thr)) (n : Nat) (hn : n < 2147483648) (C : Bytes) (hC : C.length = n * 56)
    (hf : fs (keyPath dir (bytesOf ".sift_matches") (matchMessage a b thr)) = some (leInt32 n ++ C)) :
    matchWithCache matcher block0 dir a b thr corr fs =
      if n * 56 ≤ corr.length then .ok (n, C ++ corr.drop (n * 56), fs) else .ub := by
  rw [matchWithCache_path matcher block0 hb dir a b ha hb' thr corr fs hh, hf]
  simp only
  rw [xreadInt_leInt32 n hn, Res.ok_bind]
  simp only
  rw [if_neg (by omega), Int.toNat_natCast]
  by_cases hc : n * 56 ≤ corr.length
  · rw [if_pos hc]
    have hx := xreadMem_ok corr C [] (n * 56) hC hc
    rw [List.append_nil] at hx
    rw [hx]
    rfl
  · rw [if_neg hc]
    unfold xreadMem
    rw [if_pos (by omega), if_neg hc]
    rfl

/-- C84: matching without a file: the result is that of the matcher, it is stored, and asking again with the same
keypoints, descriptors and threshold gives the same matches. -/
theorem c84_match_again (matcher : RawKeys → RawKeys → Bytes → Bytes → Res (Nat × Bytes)) (block0 : Bytes)
    (hb : block0.length = 64) (dir : Bytes) (a b : RawKeys) (ha : a.Ok) (hb' : b.Ok) (thr corr : Bytes) (fs : Files)
    (hh : FileHashable (matchMessage a b thr)) (n : Nat) (corr' : Bytes) (hm : matcher a b thr corr = .ok (n, corr'))
    (hn : n < 2147483648) (hc : n * 56 ≤ corr'.length)
    (hf : fs (keyPath dir (bytesOf ".sift_matches") (matchMessage a b thr)) = none)
    (matcher' : RawKeys → RawKeys → Bytes → Bytes → Res (Nat × Bytes)) (corr2 : Bytes) (hc2 : n * 56 ≤ corr2.length) :
    ∃ fs', matchWithCache matcher block0 dir a b thr corr fs = .ok (n, corr', fs') ∧
      (∀ p, p ≠ keyPath dir (bytesOf ".sift_matches") (matchMessage a b thr) → fs' p = fs p) ∧
      ∃ corr2', matchWithCache matcher' block0 dir a b thr corr2 fs' = .ok (n, corr2', fs') ∧
        corr2'.take (n * 56) = corr'.take (n * 56) := by
  refine ⟨fs.put (keyPath dir (bytesOf ".sift_matches") (matchMessage a b thr)) (leInt32 n ++ corr'.take (n * 56)), ?_, ?_, ?_⟩
  · rw [matchWithCache_path matcher block0 hb dir a b ha hb' thr corr fs hh, hf]
    simp only
    rw [hm, Res.ok_bind]
    simp only
    unfold xwriteMem
    rw [if_pos hc]
    rfl
  · intro p hp
    exact if_neg hp
  · have hl : (corr'.take (n * 56)).length = n * 56 := by rw [List.length_take]; omega
    refine ⟨_, (c84_match_hit matcher' block0 hb dir a b ha hb' thr corr2 _ hh n hn _ hl (if_pos rfl)).trans (if_pos hc2), ?_⟩
    exact List.take_left' hl

/-- Keypoints and descriptors whose memory is zero. -/
def zeroKeys (n : Nat) : RawKeys := ⟨n, List.replicate (n * 48) 0, List.replicate (n * 128) 0⟩

/-- C84, finding: the digest does not tell where the first set of keypoints ends. After matching two keypoints with
one, matching one keypoint with two writes two matches to the array for one. -/
theorem c84_match_overflow (matcher : RawKeys → RawKeys → Bytes → Bytes → Res (Nat × Bytes)) (block0 : Bytes)
    (hb : block0.length = 64) (dir : Bytes) (thr : Bytes) (ht : thr.length = 4) (corr corr' corr1 : Bytes) (fs : Files)
    (hf : ∀ m, fs (keyPath dir (bytesOf ".sift_matches") m) = none)
    (hm : matcher (zeroKeys 2) (zeroKeys 1) thr corr = .ok (2, corr')) (hc : corr'.length = 2 * 56) (h1 : corr1.length = 1 * 56) :
    ∃ fs', matchWithCache matcher block0 dir (zeroKeys 2) (zeroKeys 1) thr corr fs = .ok (2, corr', fs') ∧
      matchWithCache matcher block0 dir (zeroKeys 1) (zeroKeys 2) thr corr1 fs' = .ub := by
  have hz : ∀ n, (zeroKeys n).Ok := fun n => by simp [RawKeys.Ok, zeroKeys]
  have hmsg : ∀ n np, matchMessage (zeroKeys n) (zeroKeys np) thr = List.replicate (n * 48 + n * 128 + np * 48 + np * 128) 0 ++ thr := by
    intro n np
    simp [matchMessage, zeroKeys, List.take_of_length_le]
  have e : matchMessage (zeroKeys 1) (zeroKeys 2) thr = matchMessage (zeroKeys 2) (zeroKeys 1) thr := by
    rw [hmsg, hmsg]
  have hh : FileHashable (matchMessage (zeroKeys 2) (zeroKeys 1) thr) := by
    rw [hmsg, FileHashable, List.length_append, List.length_replicate, ht]
    omega
  refine ⟨fs.put (keyPath dir (bytesOf ".sift_matches") (matchMessage (zeroKeys 2) (zeroKeys 1) thr))
    (leInt32 (2 : Nat) ++ corr'.take (2 * 56)), ?_, ?_⟩
  · rw [matchWithCache_path matcher block0 hb dir _ _ (hz _) (hz _) thr corr fs hh, hf]
    simp only
    rw [hm, Res.ok_bind]
    simp only
    unfold xwriteMem
    rw [if_pos (by omega)]
    rfl
  · have hl : (corr'.take (2 * 56)).length = 2 * 56 := by rw [List.length_take]; omega
    refine (c84_match_hit matcher block0 hb dir _ _ (hz _) (hz _) thr corr1 _ (by rw [e]; exact hh) 2 (by omega) _ hl ?_).trans
      (if_neg (by omega))
    rw [e]
    exact if_pos rfl

/-! ## Saving and loading -/

theorem keypointWrite_length (ks : List Keypoint) : (keypointWrite ks).length = 44 * ks.length := by
  induction ks with
  | nil => rfl
  | cons k ks ih => simp only [keypointWrite, List.length_append, keypointWrite1_length, ih, List.length_cons]; omega

theorem siftSave_ok {n : Nat} {keys : List Keypoint} {desc : Bytes} (hk : n ≤ keys.length) (hd : n * 128 ≤ desc.length)
    (hn : n * 128 ≤ 2147483647) :
    siftSave n keys desc = .ok (leInt32 n ++ leInt32 128 ++ keypointWrite (keys.take n) ++ desc.take (n * 128)) := by
  unfold siftSave xwriteMem
  rw [if_pos hk, if_neg (by omega), if_pos hd]
  rfl

/-- The arrays after growing. -/
theorem siftLoad_head (junkK : Nat → Keypoint) (junkB : Nat → Byte) (n : Nat) (hn : n * 128 ≤ 2147483647) (st : Bytes) (max : Nat)
    (keys : List Keypoint) (desc : Bytes) (hk : keys.length = max) (hd : desc.length = max * 128) :
    ∃ (keys0 : List Keypoint) (desc0 : Bytes), keys0.length = Nat.max max n ∧ desc0.length = Nat.max max n * 128 ∧
      siftLoad junkK junkB (leInt32 n ++ leInt32 128 ++ st) max keys desc = (do
        let (keys, st) ← keypointXread n keys0 st
        let (desc, _) ← xreadMem desc0 (n * 128) st
        pure (n, Nat.max max n, keys, desc)) := by
  have e128 : xreadInt (leInt32 128 ++ st) = .ok (128, st) := xreadInt_leInt32 128 (by omega) st
  have e : siftLoad junkK junkB (leInt32 n ++ leInt32 128 ++ st) max keys desc = (do
      let (max, keys, desc) := if max < n then (n, reallocMem junkK keys n, reallocMem junkB desc (n * 128)) else (max, keys, desc)
      let (keys, st) ← keypointXread n keys st
      let (desc, _) ← xreadMem desc (n * 128) st
      pure (n, max, keys, desc)) := by
    unfold siftLoad
    rw [List.append_assoc, xreadInt_leInt32 n (by omega), Res.ok_bind]
    simp only
    rw [if_neg (by omega), e128, Res.ok_bind]
    simp only
    rw [if_neg (by omega), if_neg (by omega), Int.toNat_natCast]
  rw [e]
  by_cases hm : max < n
  · rw [if_pos hm]
    have hmax : Nat.max max n = n := Nat.max_eq_right (by omega)
    exact ⟨reallocMem junkK keys n, reallocMem junkB desc (n * 128), by rw [reallocMem_length _ _ _ (by omega), hmax],
      by rw [reallocMem_length _ _ _ (by omega), hmax], by rw [hmax]⟩
  · rw [if_neg hm]
    have hmax : Nat.max max n = max := Nat.max_eq_left (by omega)
    exact ⟨keys, desc, by rw [hmax, hk], by rw [hmax, hd], by rw [hmax]⟩

/-- C84: what is saved is loaded again, into arrays of any size. -/
theorem c84_save_load (junkK : Nat → Keypoint) (junkB : Nat → Byte) (n : Nat) (keys : List Keypoint) (desc : Bytes)
    (hk : n ≤ keys.length) (hd : n * 128 ≤ desc.length) (hn : n * 128 ≤ 2147483647) (max : Nat) (keys0 : List Keypoint) (desc0 : Bytes)
    (hk0 : keys0.length = max) (hd0 : desc0.length = max * 128) :
    ∃ content keys' desc', siftSave n keys desc = .ok content ∧
      siftLoad junkK junkB content max keys0 desc0 = .ok (n, Nat.max max n, keys', desc') ∧
      keys'.take n = keys.take n ∧ desc'.take (n * 128) = desc.take (n * 128) ∧
      keys'.length = Nat.max max n ∧ desc'.length = Nat.max max n * 128 := by
  obtain ⟨k1, d1, l1, l2, e⟩ := siftLoad_head junkK junkB n hn (keypointWrite (keys.take n) ++ desc.take (n * 128)) max keys0 desc0 hk0 hd0
  have hle : n ≤ Nat.max max n := Nat.le_max_right _ _
  have hl : (keys.take n).length = n := by rw [List.length_take]; omega
  have hr := (c41_round_trip (keys.take n) (desc.take (n * 128)) k1 (by omega)).2
  rw [hl] at hr
  have hdl : (desc.take (n * 128)).length = n * 128 := by rw [List.length_take]; omega
  have hx := xreadMem_ok d1 (desc.take (n * 128)) [] (n * 128) hdl (by omega)
  rw [List.append_nil] at hx
  refine ⟨_, keys.take n ++ k1.drop n, desc.take (n * 128) ++ d1.drop (n * 128), siftSave_ok hk hd hn, ?_, ?_, ?_, ?_, ?_⟩
  · rw [List.append_assoc (leInt32 n ++ leInt32 128), e, hr, Res.ok_bind]
    simp only
    rw [hx]
    rfl
  · exact List.take_left' hl
  · exact List.take_left' hdl
  · rw [List.length_append, hl, List.length_drop]; omega
  · rw [List.length_append, hdl, List.length_drop]; omega

/-- C84: a file that was cut off is not loaded. -/
theorem c84_load_truncated (junkK : Nat → Keypoint) (junkB : Nat → Byte) (n : Nat) (keys : List Keypoint) (desc : Bytes)
    (hk : n ≤ keys.length) (hd : n * 128 ≤ desc.length) (hn : n * 128 ≤ 2147483647) (max : Nat) (keys0 : List Keypoint) (desc0 : Bytes)
    (hk0 : keys0.length = max) (hd0 : desc0.length = max * 128) (content : Bytes) (hs : siftSave n keys desc = .ok content) (t : Nat)
    (ht : t < content.length) : siftLoad junkK junkB (content.take t) max keys0 desc0 = .fatal := by
  rw [siftSave_ok hk hd hn] at hs
  have hs := (Res.ok.inj hs).symm
  have hl : (keys.take n).length = n := by rw [List.length_take]; omega
  have hdl : (desc.take (n * 128)).length = n * 128 := by rw [List.length_take]; omega
  have hw := keypointWrite_length (keys.take n)
  have l4 := leInt32_length n
  have l4' := leInt32_length 128
  have hlen : content.length = 8 + 44 * n + n * 128 := by
    rw [hs]
    simp only [List.length_append, leInt32_length, hw, hl, hdl]
  rcases Nat.lt_or_ge t 4 with h4 | h4
  · unfold siftLoad xreadInt
    rw [fread1_short (by rw [List.length_take]; omega)]
    rfl
  rcases Nat.lt_or_ge t 8 with h8 | h8
  · have e : content.take t = leInt32 n ++ (leInt32 128).take (t - 4) := by
      rw [hs]
      simp only [List.append_assoc]
      rw [List.take_append, List.take_append, l4, l4', List.take_of_length_le (by omega), show t - 4 - 4 = 0 by omega,
        List.take_zero, List.append_nil]
    rw [e]
    unfold siftLoad
    rw [xreadInt_leInt32 n (by omega), Res.ok_bind]
    simp only
    rw [if_neg (by omega)]
    unfold xreadInt
    rw [fread1_short (by rw [List.length_take]; omega)]
    rfl
  · have e : content.take t = leInt32 n ++ leInt32 128 ++ (keypointWrite (keys.take n) ++ desc.take (n * 128)).take (t - 8) := by
      rw [hs, List.append_assoc (leInt32 n ++ leInt32 128), List.take_append, List.take_of_length_le (by rw [List.length_append]; omega),
        List.length_append, l4, l4']
    obtain ⟨k1, d1, m1, m2, e1⟩ := siftLoad_head junkK junkB n hn ((keypointWrite (keys.take n) ++ desc.take (n * 128)).take (t - 8))
      max keys0 desc0 hk0 hd0
    have hle : n ≤ Nat.max max n := Nat.le_max_right _ _
    rw [e, e1]
    rcases Nat.lt_or_ge (t - 8) (44 * n) with h44 | h44
    · rw [List.take_append, hw, hl, show t - 8 - 44 * n = 0 by omega, List.take_zero, List.append_nil]
      obtain ⟨keys', rest, g, _⟩ := c41_every_truncation (keys.take n) (t - 8) k1 (by omega) (by omega)
      rw [hl] at g
      unfold keypointXread
      rw [g, Res.ok_bind, if_neg (by simp only; omega)]
      rfl
    · rw [List.take_append, List.take_of_length_le (by omega), hw, hl]
      have hr := (c41_round_trip (keys.take n) ((desc.take (n * 128)).take (t - 8 - 44 * n)) k1 (by omega)).2
      rw [hl] at hr
      rw [hr, Res.ok_bind]
      simp only
      unfold xreadMem
      have : ((desc.take (n * 128)).take (t - 8 - 44 * n)).length < n * 128 := by
        rw [List.length_take]; omega
      rw [if_neg (by omega), if_pos (by omega)]
      rfl

/-- C84: a file with a negative number of keypoints or descriptors of another dimension is not loaded. -/
theorem c84_load_invalid (junkK : Nat → Keypoint) (junkB : Nat → Byte) (n dim : Int) (h1 : -2147483648 ≤ n) (h2 : n < 2147483648)
    (h3 : -2147483648 ≤ dim) (h4 : dim < 2147483648) (h : n < 0 ∨ dim ≠ 128) (st : Bytes) (max : Nat) (keys : List Keypoint)
    (desc : Bytes) : siftLoad junkK junkB (leInt32 n ++ leInt32 dim ++ st) max keys desc = .fatal := by
  unfold siftLoad xreadInt
  rw [List.append_assoc, fread1_append _ (leInt32_length _)]
  simp only [Res.ok_bind]
  rw [intOfLe32_leInt32 h1 h2]
  by_cases hn : n < 0
  · rw [if_pos hn]
  · rw [if_neg hn, fread1_append _ (leInt32_length _)]
    simp only [Res.ok_bind]
    rw [intOfLe32_leInt32 h3 h4, if_pos (by omega)]

/-! ## Examples -/

/-- Two images with the same six bytes. -/
def twoByThree (w h : Nat) : ByteImage := ⟨w, h, w, true, [1, 2, 3, 4, 5, 6]⟩

/-- A detector that reports one keypoint, whose description is filled with the width of the image. -/
def widthDetector (img : ByteImage) (_ : Bytes) (_ : KeyBuf) : Res (Nat × KeyBuf) :=
  .ok (1, ⟨1, List.replicate 48 0, List.replicate 128 (UInt8.ofNat img.width)⟩)

theorem widthDetector_ok : Detects widthDetector
    (fun img _ n _ D => n = 1 ∧ D = List.replicate 128 (UInt8.ofNat img.width)) := by
  intro img param buf _ _
  refine ⟨1, _, _, _, rfl, ⟨⟨by simp, by simp⟩, Nat.le_refl _, rfl, rfl⟩, by omega, rfl, ?_⟩
  simp

theorem example_calls (w h : Nat) (hw : w * h = 6) :
    (⟨twoByThree w h, List.replicate 32 7, ⟨0, [], []⟩⟩ : SiftCall).Ok := by
  have h6 : ∀ y, y < h → y * w + w ≤ 6 := by
    intro y hy
    have := Nat.mul_le_mul_right w (Nat.succ_le_of_lt hy)
    rw [Nat.succ_mul, Nat.mul_comm h w] at this
    omega
  refine ⟨⟨rfl, h6⟩, ⟨rfl, rfl⟩, by simp, ?_⟩
  have : (twoByThree w h).rows.flatten.length = 6 := by
    have hrow : (twoByThree w h).rows.map List.length = List.replicate h w := by
      unfold ByteImage.rows
      rw [List.map_map]
      apply List.ext_getElem (by simp [twoByThree])
      intro y h1 _
      have hy : y < h := by simpa [twoByThree] using h1
      have := h6 y hy
      simp [twoByThree]
      omega
    rw [List.length_flatten, hrow]
    simp [Nat.mul_comm, hw]
  unfold FileHashable ByteImage.message
  rw [List.length_append, this]
  simp

/-- The finding about the size applies: the second image is described by the width of the first one. -/
example (junk : Nat → Byte) (dir : Bytes) :
    ∃ n n' buf buf' fs' K D, runCalls widthDetector (List.replicate 64 0) junk dir
        [⟨twoByThree 2 3, List.replicate 32 7, ⟨0, [], []⟩⟩, ⟨twoByThree 3 2, List.replicate 32 7, ⟨0, [], []⟩⟩] (fun _ => none)
        = .ok ([(n, buf), (n', buf')], fs') ∧
      n' = n ∧ buf'.Holds n K D ∧ (n = 1 ∧ D = List.replicate 128 (UInt8.ofNat 2)) :=
  c84_other_size widthDetector_ok (List.replicate 64 0) rfl junk dir _ _ (example_calls 2 3 rfl) (example_calls 3 2 rfl) _ rfl
    (by decide +kernel) rfl

/-- Two keypoints. -/
example : ∃ content keys' desc', siftSave 1 [⟨1, 2, 3, 4, 5, 6, 7, 8, 9, 10⟩] (List.replicate 128 5) = .ok content ∧
    siftLoad (fun _ => ⟨0, 0, 0, 0, 0, 0, 0, 0, 0, 0⟩) (fun _ => 0) content 0 [] [] = .ok (1, 1, keys', desc') ∧
    keys'.take 1 = [⟨1, 2, 3, 4, 5, 6, 7, 8, 9, 10⟩] ∧ desc'.take 128 = List.replicate 128 5 := by
  obtain ⟨content, keys', desc', h1, h2, h3, h4, _⟩ := c84_save_load (fun _ => ⟨0, 0, 0, 0, 0, 0, 0, 0, 0, 0⟩) (fun _ => 0) 1
    [⟨1, 2, 3, 4, 5, 6, 7, 8, 9, 10⟩] (List.replicate 128 5) (by simp) (by simp) (by omega) 0 [] [] rfl rfl
  refine ⟨content, keys', desc', h1, h2, h3, ?_⟩
  simpa using h4

end Nx
