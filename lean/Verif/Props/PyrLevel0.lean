import Verif.Model.PyrLevel0
import Verif.Props.ImageMem

/-!
# C138: the first level of a pyramid before smoothing is the image the pyramid is built from
-/

namespace Nx

theorem imIs_of_shape {w : IWorld} {i : Nat} {s : Shape} (h : imShape w i = some s) : ∃ hd, ImIs w i hd ∧ hd.shape = s := by
  unfold imShape at h
  split at h
  · rename_i hd e
    exact ⟨hd, e, Option.some.inj h⟩
  · cases h

/-- Image `j` is untouched, with all its memory. -/
def MemKept (w w' : IWorld) (j : Nat) : Prop := ∀ hd l, ImIs w j hd → ImOk w j hd l → ImIs w' j hd ∧ ImOk w' j hd l

theorem memKept_of {w w' : IWorld} {j : Nat} (hh : w'.hdrs[j]? = w.hdrs[j]?) (hb : w'.mem.blocks[j]? = w.mem.blocks[j]?)
    (hv : visible w'.mem j = visible w.mem j) : MemKept w w' j := by
  intro hd l h hl
  refine ⟨by unfold ImIs; rw [hh]; exact h, ⟨by rw [hb]; exact hl.block, by rw [hv]; exact hl.bytes, hl.len, hl.channels, hl.row,
    hl.row_le, hl.all_le⟩⟩

theorem MemKept.trans {w w' w'' : IWorld} {j : Nat} (h : MemKept w w' j) (h' : MemKept w' w'' j) : MemKept w w'' j :=
  fun hd l a b => h' hd l (h hd l a b).1 (h hd l a b).2

/-- Making an 8-bit image without gaps of an image keeps the bytes it has, in their order. -/
theorem imResize_keeps {w : IWorld} {i : Nat} {hd : ImHdr} {l : List (Option Byte)} {wd ht : Nat} (hi : ImInv w) (h : ImIs w i hd)
    (hl : ImOk w i hd l) (hw : wd ≤ 2147483647) (hsz : wd * ht ≤ 2147483647) :
    ∃ w' hd' l', imResize w i wd ht 0 false false = .ok w' ∧ ImInv w' ∧ ImIs w' i hd' ∧ hd'.shape = packed wd ht false false ∧
      ImOk w' i hd' l' ∧ (wd * ht ≤ l.length → l' = l.take (wd * ht)) ∧ ∀ j, j ≠ i → MemKept w w' j := by
  unfold imResize
  rw [h.at]
  simp only [Res.ok_bind]
  rw [if_neg (by omega)]
  by_cases hsame : (hd.width : Int) = wd ∧ (hd.height : Int) = ht ∧ (hd.stride : Int) = 0 ∧ hd.rgba = false ∧ hd.float = false
  · rw [if_pos hsame]
    obtain ⟨e1, e2, e3, e4, e5⟩ := hsame
    have hrow := hl.row
    rw [e4] at hrow
    simp only [imChannels, Bool.false_eq_true, if_false, Nat.one_mul] at hrow
    have w0 : wd = 0 := by omega
    have hlen := hl.len
    rw [show hd.stride = 0 by omega, Nat.zero_mul, Nat.zero_mul] at hlen
    refine ⟨w, hd, l, rfl, hi, h, ?_, hl, ?_, fun j _ => memKept_of rfl rfl rfl⟩
    · unfold ImHdr.shape packed
      rw [e4, e5, show hd.width = wd by omega, show hd.height = ht by omega, show hd.stride = 0 by omega, w0]
      rfl
    · intro _
      have : l = [] := List.eq_nil_of_length_eq_zero hlen
      subst this
      simp
  · rw [if_neg hsame]
    simp only [imChannels, Bool.false_eq_true, if_false]
    have hst : (if (0 : Int) < ((1 : Nat) : Int) * (wd : Int) then ((1 : Nat) : Int) * (wd : Int) else 0) = wd := by
      split <;> omega
    rw [hst]
    have hp : ((wd : Int) * (ht : Int)) = ((wd * ht : Nat) : Int) := by push_cast; rfl
    rw [hp, if_pos ⟨⟨by omega, by omega⟩, ⟨by omega, by omega⟩⟩]
    simp only [Int.toNat_natCast, imBytes, Bool.false_eq_true, if_false, Nat.mul_one]
    obtain ⟨m, e, hr, ⟨l0, l', hv0, hv, hlen, htake⟩, ho⟩ := c15_call_effect (w := w.mem) (op := .resize i (wd * ht)) hi.reach hl.alive
    obtain ⟨b, hb⟩ := mStep_resize e
    rw [e]
    simp only [Res.ok_bind]
    obtain ⟨w', e', hi', his, hok, hm', hh', hoth⟩ := imPut_spec (hd := ⟨wd, ht, false, false, 1, wd, none⟩) hi h hr hb ho hv
      (by rw [hlen]; simp [imBytes]) rfl (by simp [imChannels]) (by simp only [imChannels, Bool.false_eq_true, if_false]; omega) hsz
    have hv0' := hl.bytes
    rw [hv0] at hv0'
    have hv0' := Option.some.inj hv0'
    subst hv0'
    refine ⟨w', _, l', e', hi', his, ?_, hok, ?_, ?_⟩
    · unfold ImHdr.shape packed
      simp
    · intro hle
      rw [Nat.min_eq_right hle, ← hlen, List.take_length, hlen] at htake
      exact htake
    · intro j hj
      refine memKept_of ?_ ?_ ?_
      · rw [hh', List.getElem?_set_ne (Ne.symm hj)]
      · rw [hm', hb, List.getElem?_set_ne (Ne.symm hj)]
      · rw [hm']; exact ho j hj

theorem imCopy_bytes {w : IWorld} {d s : Nat} {hdd hs : ImHdr} {l' : List (Option Byte)} (hi : ImInv w) (h : ImIs w d hdd)
    (h' : ImIs w s hs) (hl' : ImOk w s hs l') (hne : d ≠ s) :
    ∃ w' hd', imCopy w d s = .ok w' ∧ ImInv w' ∧ ImIs w' d hd' ∧ hd'.shape = hs.shape ∧ ImOk w' d hd' l' ∧
      ∀ j, j ≠ d → MemKept w w' j := by
  obtain ⟨l, hl⟩ := hi.img d hdd h
  obtain ⟨m, e, hr, hv, ho⟩ := c15_call_effect (op := .copy d s) hi.reach ⟨hl.alive, hl'.alive, hne⟩
  obtain ⟨b, hb⟩ := mStep_copy e
  rw [hl'.bytes] at hv
  obtain ⟨w', e', hi', his, hok, hm', hh', hoth⟩ := imPut_spec (hd := hs) hi h hr hb ho hv hl'.len hl'.channels hl'.row hl'.row_le
    hl'.all_le
  refine ⟨w', _, ?_, hi', his, rfl, hok, ?_⟩
  · unfold imCopy
    rw [h.at, h'.at]
    simp only [Res.ok_bind]
    rw [e]
    exact e'
  · intro j hj
    refine memKept_of ?_ ?_ ?_
    · rw [hh', List.getElem?_set_ne (Ne.symm hj)]
    · rw [hm', hb, List.getElem?_set_ne (Ne.symm hj)]
    · rw [hm']; exact ho j hj

/-- The bytes of level 0 are the first bytes of the image, whatever they mean. -/
theorem pyrStart_bytes {w : IWorld} {i s : Nat} {hd hs : ImHdr} {l : List (Option Byte)} (hi : ImInv w) (h : ImIs w i hd)
    (h' : ImIs w s hs) (hl : ImOk w s hs l) (hne : i ≠ s) (hg : hs.rgba = false) (hw : 0 < hs.width) (hh : 0 < hs.height) :
    ∃ w' hd', pyrStart w i s = .ok w' ∧ ImInv w' ∧ ImIs w' i hd' ∧ hd'.shape = packed hs.width hs.height false false ∧
      ImOk w' i hd' (l.take (hs.width * hs.height)) ∧ ∀ j, j ≠ i → MemKept w w' j := by
  have hrow := hl.row
  have hle := hl.row_le
  have hall := hl.all_le
  rw [hg] at hrow hle
  simp only [imChannels, Bool.false_eq_true, if_false, Nat.one_mul] at hrow hle
  have hsz : hs.width * hs.height ≤ hs.stride * hs.height := Nat.mul_le_mul_right _ hrow
  have hlen : hs.width * hs.height ≤ l.length := by
    rw [hl.len]
    refine Nat.le_trans hsz (Nat.le_mul_of_pos_right _ ?_)
    unfold imBytes
    split <;> omega
  obtain ⟨l0, hl0⟩ := hi.img i hd h
  obtain ⟨w1, hd1, l1, e1, hi1, his1, _, hok1, _, ho1⟩ := imResize_keeps (wd := hs.width) (ht := hs.height) hi h hl0 hle (by omega)
  have hs1 := ho1 s (Ne.symm hne) hs l h' hl
  obtain ⟨w2, hd2, e2, hi2, his2, hsh2, hok2, ho2⟩ := imCopy_bytes hi1 his1 hs1.1 hs1.2 hne
  obtain ⟨w3, hd3, l3, e3, hi3, his3, hsh3, hok3, hk3, ho3⟩ := imResize_keeps (wd := hs.width) (ht := hs.height) hi2 his2 hok2 hle
    (by omega)
  have a1 : hd2.width = hs.width := congrArg Shape.width hsh2
  have a2 : hd2.height = hs.height := congrArg Shape.height hsh2
  rw [hk3 hlen] at hok3
  refine ⟨w3, hd3, ?_, hi3, his3, hsh3, hok3, fun j hj => ((ho1 j hj).trans (ho2 j hj)).trans (ho3 j hj)⟩
  unfold pyrStart pyrCopyTo0 pyrInit0
  rw [h'.at]
  simp only [Res.ok_bind]
  rw [if_neg (by rw [hg]; decide), e1]
  simp only [Res.ok_bind]
  rw [e2]
  simp only [Res.ok_bind]
  rw [his2.at]
  simp only [Res.ok_bind]
  rw [a1, a2, if_neg (by omega), e3]

theorem MemKept.same {w w' : IWorld} {j : Nat} (hi : ImInv w) (h : MemKept w w' j) (hd : ImHdr) (hj : ImIs w j hd) :
    Same w j w' j := by
  obtain ⟨l, hl⟩ := hi.img j hd hj
  exact same_of hl hj (h hd l hj hl).2 (h hd l hj hl).1 rfl

/-- C138. For every 8-bit image without gaps between rows that is another image than that of level 0, level 0 is the same picture, and
no image but that of level 0 changes. -/
theorem c138_bytes {w : IWorld} {i s : Nat} {sh : Shape} (hr : IReach w) (h : ∃ hd, ImIs w i hd) (hs : imShape w s = some sh)
    (hne : i ≠ s) (hg : sh.rgba = false) (hf : sh.float = false) (hst : sh.stride = sh.width) (hw : 0 < sh.width) (hh : 0 < sh.height) :
    ∃ w', pyrStart w i s = .ok w' ∧ Same w s w' i ∧ ∀ j, j ≠ i → (∃ hd, ImIs w j hd) → Same w j w' j := by
  have hi := ireach_inv hr
  obtain ⟨hd, h⟩ := h
  obtain ⟨hds, h', rfl⟩ := imIs_of_shape hs
  obtain ⟨l, hl⟩ := hi.img s hds h'
  obtain ⟨w', hd', e, hi', his, hsh, hok, ho⟩ := pyrStart_bytes hi h h' hl hne hg hw hh
  refine ⟨w', e, ?_, fun j hj ⟨hdj, hjj⟩ => (ho j hj).same hi hdj hjj⟩
  have hf : hds.float = false := hf
  have hst : hds.stride = hds.width := hst
  have hg : hds.rgba = false := hg
  have hlen := hl.len
  rw [hf, hst] at hlen
  simp only [imBytes, Bool.false_eq_true, if_false, Nat.mul_one] at hlen
  rw [← hlen, List.take_length] at hok
  refine same_of hl h' hok his ?_
  rw [hsh]
  unfold packed ImHdr.shape
  rw [hf, hst, hg]
  simp

/-- C138. For every grayscale image: the pixel of level 0 in column `x` and row `y` is the byte number `y * width + x` of the memory of
the image. -/
theorem c138_memory {w : IWorld} {i s : Nat} {sh : Shape} (hr : IReach w) (h : ∃ hd, ImIs w i hd) (hs : imShape w s = some sh)
    (hne : i ≠ s) (hg : sh.rgba = false) (hw : 0 < sh.width) (hh : 0 < sh.height) :
    ∃ w', pyrStart w i s = .ok w' ∧ imShape w' i = some (packed sh.width sh.height false false) ∧
      ∀ x y, x < sh.width → y < sh.height → imByte w' i (y * sh.width + x) = imByte w s (y * sh.width + x) := by
  have hi := ireach_inv hr
  obtain ⟨hd, h⟩ := h
  obtain ⟨hds, h', rfl⟩ := imIs_of_shape hs
  obtain ⟨l, hl⟩ := hi.img s hds h'
  obtain ⟨w', hd', e, hi', his, hsh, hok, ho⟩ := pyrStart_bytes hi h h' hl hne hg hw hh
  refine ⟨w', e, by rw [his.shape, hsh]; rfl, fun x y hx hy => ?_⟩
  have hx : x < hds.width := hx
  have hy : y < hds.height := hy
  show imByte w' i (y * hds.width + x) = imByte w s (y * hds.width + x)
  have hlt : y * hds.width + x < hds.width * hds.height := by
    have := Nat.mul_le_mul_right hds.width hy
    rw [Nat.succ_mul] at this
    rw [Nat.mul_comm hds.width hds.height]
    omega
  have hrow := hl.row
  rw [show hds.rgba = false from hg] at hrow
  simp only [imChannels, Bool.false_eq_true, if_false, Nat.one_mul] at hrow
  have hlen : hds.width * hds.height ≤ l.length := by
    rw [hl.len]
    refine Nat.le_trans (Nat.mul_le_mul_right _ hrow) (Nat.le_mul_of_pos_right _ ?_)
    unfold imBytes
    split <;> omega
  rw [hok.byte his (by rw [List.length_take]; omega), hl.byte h' (by omega), List.getElem?_take, if_pos hlt]

/-- C138 is false for images of type `float`, which the assertions of `nx_image_pyr_builder_build` accept: pixel number `n` of level 0
is the byte `n % 4` of sample number `n / 4`, so that three quarters of the image have no effect. -/
theorem c138_float_false {w : IWorld} {i s : Nat} {wd ht : Nat} (hr : IReach w) (h : ∃ hd, ImIs w i hd)
    (hs : imShape w s = some (packed wd ht false true)) (hne : i ≠ s) (hw : 0 < wd) (hh : 0 < ht) :
    ∃ w', pyrStart w i s = .ok w' ∧ imShape w' i = some (packed wd ht false false) ∧
      ∀ x y, x < wd → y < ht → ∃ x' y' k, (packed wd ht false true).Has x' y' 0 k ∧ 4 * (y' * wd + x') + k = y * wd + x ∧
        imByte w' i ((packed wd ht false false).at x y 0 0) = imByte w s ((packed wd ht false true).at x' y' 0 k) := by
  obtain ⟨w', e, hsh, hb⟩ := c138_memory hr h hs hne rfl hw hh
  refine ⟨w', e, hsh, fun x y hx hy => ?_⟩
  have hlt : y * wd + x < ht * wd := by
    have := Nat.mul_le_mul_right wd hy
    rw [Nat.succ_mul] at this
    omega
  generalize hn : y * wd + x = n at *
  have d1 := Nat.div_add_mod n 4
  have d2 := Nat.div_add_mod (n / 4) wd
  have d3 := Nat.mod_lt (n / 4) hw
  have d4 := Nat.mod_lt n (show 0 < 4 by omega)
  have d5 : n / 4 / wd < ht := by
    rw [Nat.div_lt_iff_lt_mul hw]
    omega
  have e1 : n / 4 / wd * wd + n / 4 % wd = n / 4 := by rw [Nat.mul_comm]; exact d2
  refine ⟨n / 4 % wd, n / 4 / wd, n % 4, ⟨d3, d5, by simp [Shape.perPixel, packed], by simpa [Shape.perSample, packed] using d4⟩, ?_, ?_⟩
  · rw [e1]; omega
  · have a1 : (packed wd ht false false).at x y 0 0 = n := by
      simp only [Shape.at, packed, Shape.perPixel, Shape.perSample, Bool.false_eq_true, if_false, Nat.one_mul, Nat.mul_one, Nat.add_zero]
      exact hn
    have a2 : (packed wd ht false true).at (n / 4 % wd) (n / 4 / wd) 0 (n % 4) = n := by
      simp only [Shape.at, packed, Shape.perPixel, Shape.perSample, Bool.false_eq_true, if_false, if_true, Nat.one_mul, Nat.add_zero]
      rw [e1]; omega
    rw [a1, a2]
    have := hb x y hx hy
    rw [show (packed wd ht false true).width = wd from rfl, hn] at this
    exact this

/-- C138 is false for the image of level 0 itself (as in `pyr.rebuild_from(pyr[0])`): memory is copied onto itself, which is undefined. -/
theorem c138_self {w : IWorld} {i : Nat} {sh : Shape} (hr : IReach w) (hs : imShape w i = some sh) (hg : sh.rgba = false)
    (hw : 0 < sh.width) (hh : 0 < sh.height) : pyrStart w i i = .ub := by
  have hi := ireach_inv hr
  obtain ⟨hd, h, rfl⟩ := imIs_of_shape hs
  obtain ⟨l, hl⟩ := hi.img i hd h
  have hg : hd.rgba = false := hg
  have hw : 0 < hd.width := hw
  have hh : 0 < hd.height := hh
  have hrow := hl.row
  have hle := hl.row_le
  have hall := hl.all_le
  rw [hg] at hrow hle
  simp only [imChannels, Bool.false_eq_true, if_false, Nat.one_mul] at hrow hle
  have hsz : hd.width * hd.height ≤ hd.stride * hd.height := Nat.mul_le_mul_right _ hrow
  have ha : ImAllowed w (.resize i hd.width hd.height 0 false false) := by
    refine ⟨⟨hd, h⟩, by omega, by omega, ?_, ?_⟩
    · show (1 : Int) * hd.width ≤ _
      omega
    · show max (0 : Int) ((1 : Int) * hd.width) * hd.height ≤ _
      rw [Int.one_mul, show max (0 : Int) hd.width = hd.width by omega, ← Int.natCast_mul]
      omega
  obtain ⟨w1, hd1, l1, e1, hi1, his1, hsh1, _, _, _⟩ := imResize_keeps (wd := hd.width) (ht := hd.height) hi h hl hle (by omega)
  have hr1 : IReach w1 := .step (op := .resize i hd.width hd.height 0 false false) hr ha e1
  unfold pyrStart pyrCopyTo0
  rw [h.at]
  simp only [Res.ok_bind]
  rw [if_neg (by rw [hg]; decide), e1]
  simp only [Res.ok_bind]
  have a1 : hd1.stride = hd.width := by
    have := congrArg Shape.stride hsh1
    simpa [packed, ImHdr.shape] using this
  have a2 : hd1.height = hd.height := congrArg Shape.height hsh1
  rw [c80_self_copy hr1 his1 (by rw [a1, a2]; exact Nat.mul_pos hw hh)]
  rfl

/-- C138. Colour images and images without pixels end the program. -/
theorem c138_refused {w : IWorld} {i s : Nat} {sh : Shape} (hr : IReach w) (h : ∃ hd, ImIs w i hd) (hs : imShape w s = some sh)
    (hne : i ≠ s) (hbad : sh.rgba = true ∨ sh.width = 0 ∨ sh.height = 0) : pyrStart w i s = .fatal := by
  have hi := ireach_inv hr
  obtain ⟨hd, h⟩ := h
  obtain ⟨hds, h', rfl⟩ := imIs_of_shape hs
  obtain ⟨l, hl⟩ := hi.img s hds h'
  unfold pyrStart
  rw [h'.at]
  simp only [Res.ok_bind]
  cases hg : hds.rgba with
  | true => rw [if_pos rfl]
  | false =>
    rw [if_neg (by decide)]
    have hrow := hl.row
    have hle := hl.row_le
    have hall := hl.all_le
    rw [hg] at hrow hle
    simp only [imChannels, Bool.false_eq_true, if_false, Nat.one_mul] at hrow hle
    have hsz : hds.width * hds.height ≤ hds.stride * hds.height := Nat.mul_le_mul_right _ hrow
    obtain ⟨l0, hl0⟩ := hi.img i hd h
    obtain ⟨w1, hd1, l1, e1, hi1, his1, _, hok1, _, ho1⟩ := imResize_keeps (wd := hds.width) (ht := hds.height) hi h hl0 hle (by omega)
    have hs1 := ho1 s (Ne.symm hne) hds l h' hl
    obtain ⟨w2, hd2, e2, hi2, his2, hsh2, hok2, ho2⟩ := imCopy_bytes hi1 his1 hs1.1 hs1.2 hne
    unfold pyrCopyTo0 pyrInit0
    rw [h'.at]
    simp only [Res.ok_bind]
    rw [e1]
    simp only [Res.ok_bind]
    rw [e2]
    simp only [Res.ok_bind]
    rw [his2.at]
    simp only [Res.ok_bind]
    have a1 : hd2.width = hds.width := congrArg Shape.width hsh2
    have a2 : hd2.height = hds.height := congrArg Shape.height hsh2
    rw [a1, a2, if_pos]
    rcases hbad with hb | hb | hb
    · rw [show hds.shape.rgba = hds.rgba from rfl, hg] at hb; cases hb
    · exact .inl hb
    · exact .inr hb

/-- Level 0, empty, and an image of two samples 1.0. -/
def level0Ops : List IOp := [.alloc, .alloc, .wrap 1 [0, 0, 128, 63, 0, 0, 128, 63] 2 1 2 false true true]

example : ∃ w w', level0Ops.foldlM imStep ⟨⟨[], []⟩, []⟩ = .ok w ∧ imShape w 1 = some (packed 2 1 false true) ∧ pyrStart w 0 1 = .ok w' ∧
    imByte w' 0 0 = some (some 0) ∧ imByte w' 0 1 = some (some 0) := by
  refine ⟨_, _, rfl, rfl, rfl, ?_, ?_⟩ <;> decide +kernel


end Nx
