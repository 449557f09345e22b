import Verif.Spec.SiftStore
import Verif.Props.SiftOri
import Verif.Props.SiftMatch

/-!
# The store of SIFT keypoints (C89)
-/

namespace Nx

theorem cTrunc_int (n : Int) : cTrunc (n : Rat) = n := by
  unfold cTrunc
  split
  · exact Int.floor_intCast n
  · exact Int.ceil_intCast n

theorem growCap_bounds {rd : Rat → Rat} (hr : FloatRound rd) {cap : Int} (h2 : 2 ≤ cap) (hm : cap ≤ 8388607) :
    cap + 1 ≤ growCap rd cap ∧ growCap rd cap ≤ 2 * cap := by
  obtain ⟨c, rfl⟩ : ∃ n : Nat, cap = n := ⟨cap.toNat, by omega⟩
  have e : rd (((c : Int) : Rat)) = c := by rw [Int.cast_natCast]; exact hr.exact c (by omega)
  have hc : (2 : Rat) ≤ c := by exact_mod_cast h2
  have e1 : rd ((c + 1 : Nat) : Rat) = ((c + 1 : Nat) : Rat) := hr.exact _ (by omega)
  have e2 : rd ((2 * c : Nat) : Rat) = ((2 * c : Nat) : Rat) := hr.exact _ (by omega)
  have l1 : ((c + 1 : Nat) : Rat) ≤ rd ((c : Rat) * (13421773 / 8388608)) := by
    rw [← e1]
    refine hr.mono _ _ ?_
    push_cast
    linarith
  have l2 : rd ((c : Rat) * (13421773 / 8388608)) ≤ ((2 * c : Nat) : Rat) := by
    rw [← e2]
    refine hr.mono _ _ ?_
    push_cast
    linarith
  unfold growCap cTrunc
  rw [e, if_pos (le_trans (by positivity) l1)]
  constructor
  · rw [Int.le_floor]
    refine le_trans (le_of_eq ?_) l1
    push_cast
    rfl
  · have := (Int.floor_le _).trans l2
    exact_mod_cast this

theorem reallocMem_len {α : Type} (junk : Nat → α) (mem : List α) (len : Nat) : (reallocMem junk mem len).length = len := by
  unfold reallocMem
  rw [List.length_append, List.length_take, List.length_map, List.length_range]
  omega

theorem reallocMem_take {α : Type} (junk : Nat → α) (mem : List α) (len k : Nat) (h1 : k ≤ mem.length) (h2 : k ≤ len) :
    (reallocMem junk mem len).take k = mem.take k := by
  unfold reallocMem
  rw [List.take_append_of_le_length (by rw [List.length_take]; omega), List.take_take, Nat.min_eq_left h2]

/-- C89: appending to a store with room for at least two keypoints gives the next position; all keypoints and descriptors stay, also when the arrays
grow. -/
theorem c89_append {κ : Type} (rd : Rat → Rat) (hr : FloatRound rd) (junkK : Nat → κ) (junkB : Nat → Byte) (s : KeyStore κ)
    (l : List (κ × List Byte)) (hs : StoreHolds s l) (h2 : 2 ≤ s.cap) (hl : l.length ≤ 8388607) :
    ∃ s', storeAppend rd junkK junkB s = .ok (s', l.length) ∧ s'.n = l.length + 1 ∧ s'.n ≤ s'.cap ∧ s.cap ≤ s'.cap ∧
      (s'.keys.length : Int) = s'.cap ∧ (s'.desc.length : Int) = s'.cap * 128 ∧
      s'.keys.take l.length = l.map (fun e => e.1) ∧ s'.desc.take (l.length * 128) = (l.map (fun e => e.2)).flatten := by
  obtain ⟨h_n, h_le, h_k, h_d, e_k, e_d, _⟩ := hs
  unfold storeAppend
  by_cases hg : s.n ≥ s.cap
  · rw [if_pos hg]
    have hcap : s.cap = l.length := by omega
    have hb := growCap_bounds hr h2 (by omega)
    have hgrow : growStore rd junkK junkB s = .ok { s with cap := growCap rd s.cap, keys := reallocMem junkK s.keys (growCap rd s.cap).toNat, desc := reallocMem junkB s.desc (growCap rd s.cap * 128).toNat } := by
      unfold growStore
      simp only
      rw [if_neg (by omega), if_neg (by omega)]
    rw [hgrow, Res.ok_bind]
    simp only
    rw [if_pos (by omega), h_n]
    refine ⟨_, rfl, rfl, by simp only; omega, by simp only; omega, ?_, ?_, ?_, ?_⟩
    · simp only [reallocMem_len]; omega
    · simp only [reallocMem_len]; omega
    · simp only
      rw [reallocMem_take _ _ _ _ (by omega) (by omega), e_k]
    · simp only
      rw [reallocMem_take _ _ _ _ (by omega) (by omega), e_d]
  · rw [if_neg hg, Res.pure_eq, Res.ok_bind]
    simp only
    rw [if_pos (by omega), h_n]
    exact ⟨_, rfl, rfl, by simp only; omega, le_refl _, h_k, h_d, e_k, e_d⟩

/-- C89, finding: with room for no or one keypoint the arrays never grow: the next keypoint ends the program. -/
theorem c89_small {κ : Type} (rd : Rat → Rat) (hr : FloatRound rd) (hc : rd (13421773 / 8388608) = 13421773 / 8388608) (junkK : Nat → κ)
    (junkB : Nat → Byte) (s : KeyStore κ) (h : s.cap = 0 ∨ s.cap = 1) (hn : s.n = s.cap) : storeAppend rd junkK junkB s = .fatal := by
  have hgc : growCap rd s.cap = s.cap := by
    unfold growCap
    rcases h with h | h
    · rw [h]
      have e0 : rd (((0 : Int) : Rat)) = 0 := by
        have := hr.exact 0 (by omega)
        simpa using this
      rw [e0, zero_mul]
      have := hr.exact 0 (by omega)
      rw [show rd (0 : Rat) = ((0 : Int) : Rat) by simpa using this, cTrunc_int]
    · rw [h]
      have e1 : rd (((1 : Int) : Rat)) = 1 := by
        have := hr.exact 1 (by omega)
        simpa using this
      rw [e1, one_mul, hc]
      unfold cTrunc
      rw [if_pos (by norm_num), Int.floor_eq_iff]
      norm_num
  unfold storeAppend
  rw [if_pos (by omega)]
  unfold growStore
  simp only
  rw [hgc, if_neg (by omega), if_neg (by omega), Res.ok_bind]
  simp only
  rw [if_neg (by omega)]

theorem putBytes_spec (desc : List Byte) (off : Nat) (bs : List Byte) (h : off + bs.length ≤ desc.length) :
    putBytes desc off bs = .ok (desc.take off ++ bs ++ desc.drop (off + bs.length)) := by
  unfold putBytes
  obtain ⟨d, e, hd⟩ := forLoop_spec (n := bs.length) (i0 := 0) (s := desc)
    (body := fun i desc => do
      let b ← readAt bs i
      writeAt desc (off + i) b)
    (fun k d => d = desc.take off ++ bs.take k ++ desc.drop (off + k))
    (Nat.zero_le _) (by simp) (by
      intro k d _ hk hd
      subst hd
      have hlen : (desc.take off ++ bs.take k).length = off + k := by
        rw [List.length_append, List.length_take, List.length_take]
        omega
      refine ⟨_, ?_, rfl⟩
      rw [readAt_ok hk, Res.ok_bind, writeAt_ok _ (by rw [List.length_append, hlen, List.length_drop]; omega)]
      congr 1
      rw [List.set_append_right _ _ (by omega), hlen, Nat.sub_self, List.drop_eq_getElem_cons (by omega : off + k < desc.length), List.set_cons_zero,
        List.take_add_one (l := bs), List.getElem?_eq_getElem hk, Option.toList_some]
      simp only [List.append_assoc, List.cons_append, List.nil_append, Nat.add_assoc])
  rw [e, hd, List.take_length]

section
set_option linter.unusedSectionVars false
variable {K : Type} [Field K] [LinearOrder K] [IsStrictOrderedRing K] [FloorRing K]

theorem take_set_self {α : Type} {l : List α} {i : Nat} {a : α} (h : i < l.length) : (l.set i a).take (i + 1) = l.take i ++ [a] := by
  rw [List.take_add_one, List.getElem?_set_self h, List.take_set_of_le (le_refl i)]
  rfl

/-- C89: creating a keypoint adds it and its descriptor at the end of the store; its number is its position. -/
theorem c89_key (rd : Rat → Rat) (hr : FloatRound rd) (junkK : Nat → SiftRecord K) (junkB : Nat → Byte) (descr : SiftKey K → Res (List Byte))
    (octave : Int) (scale sigma score x y ori : K) (s : KeyStore (SiftRecord K)) (l : List (SiftRecord K × List Byte)) (hs : StoreHolds s l)
    (h2 : 2 ≤ s.cap) (hl : l.length ≤ 8388607) (bs : List Byte) (hbs : bs.length = 128)
    (hd : descr ⟨cTrunc (x + 1 / 2), cTrunc (y + 1 / 2), x, y, sigma, ori⟩ = .ok bs) :
    ∃ s', storeKey rd junkK junkB descr octave scale sigma score x y ori s = .ok s' ∧ 2 ≤ s'.cap ∧
      StoreHolds s' (l ++ [(⟨cTrunc (x + 1 / 2), cTrunc (y + 1 / 2), x, y, octave, scale, sigma, score, ori, l.length⟩, bs)]) := by
  obtain ⟨s1, e1, n1, c1, g1, k1, d1, ek1, ed1⟩ := c89_append rd hr junkK junkB s l hs h2 hl
  unfold storeKey
  rw [e1, Res.ok_bind]
  simp only
  unfold writeI
  rw [if_pos (by omega), Int.toNat_natCast, writeAt_ok _ (by omega), Res.ok_bind, if_neg (by omega)]
  have hkey : (makeRecord octave scale sigma score x y ori (l.length : Int)).key = ⟨cTrunc (x + 1 / 2), cTrunc (y + 1 / 2), x, y, sigma, ori⟩ := rfl
  rw [hkey, hd, Res.ok_bind, show ((l.length : Int) * 128).toNat = l.length * 128 by omega, putBytes_spec _ _ _ (by omega), Res.ok_bind, Res.pure_eq]
  refine ⟨_, rfl, by simp only; omega, ?_⟩
  refine ⟨?_, by simp only; omega, ?_, ?_, ?_, ?_, ?_⟩
  · simp only [List.length_append, List.length_singleton]
    omega
  · simp only [List.length_set]
    omega
  · simp only [List.length_append, List.length_take, List.length_drop]
    omega
  · simp only [List.length_append, List.length_singleton, List.map_append, List.map_cons, List.map_nil]
    rw [take_set_self (by omega), ek1]
    rfl
  · simp only [List.length_append, List.length_singleton, List.map_append, List.map_cons, List.map_nil, List.flatten_append, List.flatten_cons,
      List.flatten_nil, List.append_nil]
    rw [List.take_append_of_le_length (by rw [List.length_append, List.length_take]; omega), ed1]
    refine List.take_of_length_le ?_
    have h128 : ((l.map (fun e => e.2)).flatten).length = l.length * 128 := by
      rw [← ed1, List.length_take]
      omega
    rw [List.length_append, h128]
    omega
  · intro e he
    rcases List.mem_append.mp he with h | h
    · exact hs.desc_128 e h
    · rw [List.mem_singleton.mp h]
      exact hbs

/-- C89: for each direction one keypoint is added, in this order; earlier ones stay. -/
theorem c89_keys (rd : Rat → Rat) (hr : FloatRound rd) (junkK : Nat → SiftRecord K) (junkB : Nat → Byte) (descr : SiftKey K → Res (List Byte))
    (octave : Int) (scale sigma score x y : K) (dirs : List (Nat × K)) (ds : K → List Byte)
    (hd : ∀ o ∈ dirs, descr ⟨cTrunc (x + 1 / 2), cTrunc (y + 1 / 2), x, y, sigma, o.2⟩ = .ok (ds o.2) ∧ (ds o.2).length = 128)
    (s : KeyStore (SiftRecord K)) (l : List (SiftRecord K × List Byte)) (hs : StoreHolds s l) (h2 : 2 ≤ s.cap)
    (hl : l.length + dirs.length ≤ 8388608) :
    ∃ s' new, storeDirs rd junkK junkB descr octave scale sigma score x y dirs s = .ok s' ∧ 2 ≤ s'.cap ∧ StoreHolds s' (l ++ new) ∧
      new.map (fun e => e.1.ori) = dirs.map (fun o => o.2) ∧ new.map (fun e => e.1.id) = (List.range dirs.length).map (fun k => ((l.length + k : Nat) : Int)) ∧
      ∀ e ∈ new, e.2 = ds e.1.ori ∧ e.1.xs = x ∧ e.1.ys = y ∧ e.1.x = cTrunc (x + 1 / 2) ∧ e.1.y = cTrunc (y + 1 / 2) ∧ e.1.level = octave ∧ e.1.scale = scale ∧ e.1.sigma = sigma ∧ e.1.score = score := by
  induction dirs generalizing s l with
  | nil => exact ⟨s, [], rfl, h2, by rw [List.append_nil]; exact hs, rfl, rfl, fun e he => absurd he List.not_mem_nil⟩
  | cons o dirs ih =>
    obtain ⟨b, ori⟩ := o
    rw [List.length_cons] at hl
    have hd0 := hd (b, ori) List.mem_cons_self
    obtain ⟨s1, e1, c1, hs1⟩ := c89_key rd hr junkK junkB descr octave scale sigma score x y ori s l hs h2 (by omega) (ds ori) hd0.2 hd0.1
    obtain ⟨s2, new, e2, c2, hs2, h1, hid, h3⟩ := ih (fun o ho => hd o (List.mem_cons_of_mem _ ho)) s1 _ hs1 c1
      (by rw [List.length_append, List.length_singleton]; omega)
    refine ⟨s2, _ :: new, ?_, c2, by rw [List.append_assoc] at hs2; exact hs2, ?_, ?_, ?_⟩
    · unfold storeDirs
      rw [e1, Res.ok_bind, e2]
    · rw [List.map_cons, List.map_cons, h1]
    · rw [List.map_cons, hid, List.length_cons, List.range_succ_eq_map, List.map_cons, List.map_map, Nat.add_zero]
      congr 1
      refine List.map_congr_left (fun k _ => ?_)
      rw [List.length_append, List.length_singleton, Function.comp_apply]
      congr 1
      omega
    · intro e he
      rcases List.mem_cons.mp he with rfl | h
      · exact ⟨rfl, rfl, rfl, rfl, rfl, rfl, rfl, rfl, rfl⟩
      · exact h3 e h

/-- C89: the whole function: one keypoint is added for each direction of the histogram, in the order of the bins, all at the same position, and
numbered with their positions in the store. -/
theorem c89_compute (m : FloatMath K) (hp : 0 < 2 * m.pi) (pow2 : K → K) (rd : Rat → Rat) (hr : FloatRound rd) (junkK : Nat → SiftRecord K)
    (junkB : Nat → Byte) (hist buf : List K) (gx gy : GImage K) (nScales mag octave : Int) (sigmaC dogVal i x y : K)
    (hist' : List K) (p : K) (dirs : List (Nat × K)) (e1 : oriHist m hist buf gx gy x y (sigmaC * pow2 (i / nScales)) = .ok (hist', p))
    (e2 : oriKeys m hist' p = .ok dirs)
    (hd : ∀ o ∈ dirs, ∃ bs, siftDescriptor m hp gx gy ⟨cTrunc (x + 1 / 2), cTrunc (y + 1 / 2), x, y, sigmaC * pow2 (i / nScales), o.2⟩ mag = .ok bs ∧
      bs.length = 128)
    (s : KeyStore (SiftRecord K)) (l : List (SiftRecord K × List Byte)) (hs : StoreHolds s l) (h2 : 2 ≤ s.cap)
    (hl : l.length + dirs.length ≤ 8388608) :
    ∃ s' new, computeKeys m pow2 rd junkK junkB hist buf hp gx gy nScales mag octave sigmaC dogVal i x y s = .ok s' ∧
      StoreHolds s' (l ++ new) ∧ new.map (fun e => e.1.ori) = dirs.map (fun o => o.2) ∧
      new.map (fun e => e.1.id) = (List.range dirs.length).map (fun k => ((l.length + k : Nat) : Int)) ∧
      ∀ e ∈ new, siftDescriptor m hp gx gy e.1.key mag = .ok e.2 ∧ e.1.xs = x ∧ e.1.ys = y ∧ e.1.level = octave ∧ e.1.scale = pow2 octave ∧
        e.1.sigma = sigmaC * pow2 (i / nScales) ∧ e.1.score = dogVal := by
  have hdesc : ∀ o : K, ∃ bs, (∃ b, (b, o) ∈ dirs) →
      siftDescriptor m hp gx gy ⟨cTrunc (x + 1 / 2), cTrunc (y + 1 / 2), x, y, sigmaC * pow2 (i / nScales), o⟩ mag = .ok bs ∧
      bs.length = 128 := by
    intro o
    by_cases h : ∃ b, (b, o) ∈ dirs
    · obtain ⟨b, hb⟩ := h
      obtain ⟨bs, hbs⟩ := hd _ hb
      exact ⟨bs, fun _ => hbs⟩
    · exact ⟨[], fun h' => absurd h' h⟩
  choose ds hds using hdesc
  obtain ⟨s', new, e3, _, hs', ho, hid, hall⟩ := c89_keys rd hr junkK junkB (fun k => siftDescriptor m hp gx gy k mag) octave (pow2 octave)
    (sigmaC * pow2 (i / nScales)) dogVal x y dirs ds (fun o h => hds o.2 ⟨o.1, h⟩) s l hs h2 hl
  refine ⟨s', new, ?_, hs', ho, hid, ?_⟩
  · unfold computeKeys
    simp only
    rw [e1, Res.ok_bind]
    simp only
    rw [e2, Res.ok_bind, e3]
  · intro e hmem
    obtain ⟨a1, a2, a3, a4, a5, a6, a7, a8, a9⟩ := hall e hmem
    refine ⟨?_, a2, a3, a6, a7, a8, a9⟩
    have hk : e.1.key = ⟨cTrunc (x + 1 / 2), cTrunc (y + 1 / 2), x, y, sigmaC * pow2 (i / nScales), e.1.ori⟩ := by
      unfold SiftRecord.key
      rw [a2, a3, a4, a5, a8]
    have hmd : e.1.ori ∈ dirs.map (fun o => o.2) := ho ▸ List.mem_map.mpr ⟨e, hmem, rfl⟩
    obtain ⟨o, ho1, ho2⟩ := List.mem_map.mp hmd
    rw [hk, a1]
    exact (hds _ ⟨o.1, by rw [← ho2]; exact ho1⟩).1

/-- C89: with functions that meet their contracts, the function does not fail on any images of gradients. Partial: no sample may have exactly the
direction of a keypoint (`c85_zero_direction`). -/
theorem c89_compute_partial (m : FloatMath K) (hm : SqrtOk m) (he : ∀ x : K, 0 ≤ m.exp x) (hp : 0 < 2 * m.pi) (ha : ∀ a b : K, -m.pi ≤ m.atan2 a b)
    (pow2 : K → K) (rd : Rat → Rat) (hr : FloatRound rd) (junkK : Nat → SiftRecord K) (junkB : Nat → Byte) (hist buf : List K)
    (hh : hist.length = 38) (hb : buf.length = 38) (gx gy : GImage K) (w h : Nat) (fx fy : Nat → Nat → K) (hx : gx.Shows w h fx)
    (hy : gy.Shows w h fy) (nScales mag octave : Int) (sigmaC dogVal i x y : K)
    (hz : ∀ hist' p dirs, oriHist m hist buf gx gy x y (sigmaC * pow2 (i / nScales)) = .ok (hist', p) → oriKeys m hist' p = .ok dirs →
      ∀ o ∈ dirs, ∀ dx dy, let key : SiftKey K := ⟨cTrunc (x + 1 / 2), cTrunc (y + 1 / 2), x, y, sigmaC * pow2 (i / nScales), o.2⟩
      Used m key mag w h dx dy → sampleBin m hp key (fx (dx + key.x).toNat (dy + key.y).toNat) (-fy (dx + key.x).toNat (dy + key.y).toNat) ≠ 0)
    (s : KeyStore (SiftRecord K)) (l : List (SiftRecord K × List Byte)) (hs : StoreHolds s l) (h2 : 2 ≤ s.cap) (hl : l.length ≤ 8388572) :
    ∃ s' new, computeKeys m pow2 rd junkK junkB hist buf hp gx gy nScales mag octave sigmaC dogVal i x y s = .ok s' ∧
      StoreHolds s' (l ++ new) ∧ new.length ≤ 36 := by
  have hp' : 0 < m.pi := by linarith
  obtain ⟨hist', p, e1, hB, h37, h0, _⟩ := c86_all m hp' ha gx gy w h fx fy hx hy hist buf hh hb x y (sigmaC * pow2 (i / nScales))
  obtain ⟨dirs, e2, hdirs, _⟩ := c86_directions m hist' _ _ p hB h37 h0
  have hlen : dirs.length ≤ 36 := by
    have := congrArg List.length hdirs
    rw [List.length_map] at this
    rw [this]
    exact (List.length_filter_le _ _).trans (by rw [List.length_range])
  obtain ⟨s', new, e3, hs', ho, _⟩ := c89_compute m hp pow2 rd hr junkK junkB hist buf gx gy nScales mag octave sigmaC dogVal i x y hist' p dirs e1 e2
    (fun o ho => c85_descriptor_partial m hm he hp gx gy w h fx fy hx hy _ mag (hz hist' p dirs e1 e2 o ho)) s l hs h2 (by omega)
  refine ⟨s', new, e3, hs', ?_⟩
  have := congrArg List.length ho
  rw [List.length_map, List.length_map] at this
  omega

end

/-- C89, finding: a full store of more than ten million keypoints can not grow: the size of the descriptors is computed in a signed integer and
overflows. -/
theorem c89_overflow {κ : Type} (rd : Rat → Rat) (hr : FloatRound rd) (junkK : Nat → κ) (junkB : Nat → Byte) (s : KeyStore κ)
    (h1 : 10485760 ≤ s.cap) (h2 : s.cap ≤ 16777216) (hn : s.n = s.cap) : storeAppend rd junkK junkB s = .ub := by
  have hg : 16777216 ≤ growCap rd s.cap := by
    generalize s.cap = cap at *
    obtain ⟨c, rfl⟩ : ∃ n : Nat, cap = n := ⟨cap.toNat, by omega⟩
    have e : rd (((c : Int) : Rat)) = c := by rw [Int.cast_natCast]; exact hr.exact c (by omega)
    have hc : (10485760 : Rat) ≤ c := by exact_mod_cast h1
    have e1 : rd ((16777216 : Nat) : Rat) = ((16777216 : Nat) : Rat) := hr.exact _ (by omega)
    have l1 : ((16777216 : Nat) : Rat) ≤ rd ((c : Rat) * (13421773 / 8388608)) := by
      rw [← e1]
      refine hr.mono _ _ ?_
      push_cast
      linarith
    unfold growCap cTrunc
    rw [e, if_pos (le_trans (by positivity) l1), Int.le_floor]
    exact le_trans (by norm_num) l1
  unfold storeAppend
  rw [if_pos (by omega)]
  unfold growStore
  simp only
  rw [if_neg (by omega), if_pos (by omega)]
  rfl

/-- C89: the octave `k` has the size of the image divided by `2 ^ k`, and there are octaves exactly as long as both sizes are above the limit. -/
theorem c89_octaves (limit w h k : Nat) :
    (octaveSizes limit w h)[k]? = if limit < w / 2 ^ k ∧ limit < h / 2 ^ k then some (w / 2 ^ k, h / 2 ^ k) else none := by
  induction k generalizing w h with
  | zero =>
    rw [octaveSizes]
    simp only [Nat.pow_zero, Nat.div_one]
    split <;> rfl
  | succ k ih =>
    rw [octaveSizes]
    have e : ∀ n : Nat, n / 2 ^ (k + 1) = n / 2 / 2 ^ k := fun n => by rw [Nat.pow_succ', Nat.div_div_eq_div_mul]
    rw [e, e]
    split
    · rw [List.getElem?_cons_succ, ih]
    · rename_i h1
      rw [List.getElem?_nil, if_neg]
      rintro ⟨h2, h3⟩
      refine h1 ⟨?_, ?_⟩
      · exact lt_of_lt_of_le h2 ((Nat.div_le_self _ _).trans (Nat.div_le_self _ _))
      · exact lt_of_lt_of_le h3 ((Nat.div_le_self _ _).trans (Nat.div_le_self _ _))

/-! ### Examples -/

/-- An empty store with room for two keypoints. -/
def demoStore : KeyStore Nat := ⟨0, 2, [0, 0], List.replicate 256 0⟩

theorem demoStore_holds : StoreHolds demoStore [] := ⟨rfl, by decide, rfl, by decide +kernel, rfl, rfl, by simp⟩

example : ∃ s', storeAppend id (fun _ => 0) (fun _ => 0) demoStore = .ok (s', 0) ∧ s'.n = 1 :=
  let ⟨s', e, h, _⟩ := c89_append id floatRound_id (fun _ => 0) (fun _ => 0) demoStore [] demoStore_holds (by decide) (by decide)
  ⟨s', e, h⟩

/-- A full store grows from two to three, from three to four and from 100 to 160. -/
example : growCap id 2 = 3 ∧ growCap id 3 = 4 ∧ growCap id 100 = 160 := by decide +kernel

example : (match storeAppend id (fun _ => 7) (fun _ => 9) ⟨2, 2, [5, 6], List.replicate 256 1⟩ with
    | .ok (s', i) => decide (i = 2 ∧ s'.n = 3 ∧ s'.keys = [5, 6, 7] ∧ s'.desc = List.replicate 256 1 ++ List.replicate 128 9)
    | _ => false) = true := by decide +kernel

/-- Room for one. -/
example : storeAppend id (fun _ => 0) (fun _ => 0) (⟨1, 1, [4], List.replicate 128 0⟩ : KeyStore Nat) = .fatal :=
  c89_small id floatRound_id rfl _ _ _ (Or.inr rfl) rfl

/-- A store with ten million keypoints and some more. -/
example (keys : List Nat) (desc : List Byte) : storeAppend id (fun _ => 0) (fun _ => 0) (⟨10485760, 10485760, keys, desc⟩ : KeyStore Nat) = .ub :=
  c89_overflow id floatRound_id _ _ _ (le_refl _) (by show (10485760 : Int) ≤ 16777216; omega) rfl

/-- A keypoint with two directions in an empty store with room for two. -/
example : ∃ s' new, storeDirs (K := ℚ) id (fun _ => ⟨0, 0, 0, 0, 0, 0, 0, 0, 0, 0⟩) (fun _ => 0) (fun k => .ok (List.replicate 128 (if k.ori < 0 then 1 else 2)))
    1 2 3 4 (51 / 10) (69 / 10) [(3, -1), (20, 1)] ⟨0, 2, List.replicate 2 ⟨0, 0, 0, 0, 0, 0, 0, 0, 0, 0⟩, List.replicate 256 0⟩ = .ok s' ∧
    StoreHolds s' ([] ++ new) ∧ new.map (fun e => e.1.ori) = [-1, 1] ∧ new.map (fun e => e.1.id) = [0, 1] := by
  obtain ⟨s', new, e, _, h, h1, h2, _⟩ := c89_keys (K := ℚ) id floatRound_id (fun _ => ⟨0, 0, 0, 0, 0, 0, 0, 0, 0, 0⟩) (fun _ => 0)
    (fun k => .ok (List.replicate 128 (if k.ori < 0 then 1 else 2))) 1 2 3 4 (51 / 10) (69 / 10) [(3, -1), (20, 1)]
    (fun o => List.replicate 128 (if o < 0 then 1 else 2)) (fun o _ => ⟨rfl, List.length_replicate⟩)
    ⟨0, 2, List.replicate 2 ⟨0, 0, 0, 0, 0, 0, 0, 0, 0, 0⟩, List.replicate 256 0⟩ []
    ⟨rfl, by simp, by simp, by rw [List.length_replicate]; rfl, rfl, rfl, by simp⟩ (by simp) (by simp)
  exact ⟨s', new, e, h, h1, h2⟩

/-- Rough functions over the rational numbers, for computed examples. -/
def roughMath : FloatMath ℚ := ⟨3, fun x => x + 1, fun _ => 0, fun _ => 1, fun _ => 1, fun a _ => if a < 1 then -11 / 10 else 2⟩

/-- Gradients of two kinds: two keypoints are added behind the two that are there. -/
example : (match computeKeys roughMath (fun _ => 1) id (fun _ => ⟨0, 0, 0, 0, 0, 0, 0, 0, 0, 0⟩) (fun _ => 0) (List.replicate 38 0) (List.replicate 38 0)
      (by decide +kernel) ⟨6, 6, 6, List.replicate 36 (1 / 2)⟩ ⟨6, 6, 6, (List.range 36).map (fun i => if i % 2 = 0 then (-3 / 2) else 1 / 2)⟩ 3 1 0 1 5 1 3 3
      ⟨2, 2, List.replicate 2 ⟨0, 0, 0, 0, 0, 0, 0, 0, 0, 0⟩, List.replicate 256 0⟩ with
    | .ok s' => decide (s'.n = 4 ∧ (s'.keys.take 4).map (fun k => k.id) = [0, 0, 2, 3])
    | _ => false) = true := by decide +kernel

/-- An image of 640 by 480 with a limit of 12. -/
example : octaveSizes 12 640 480 = [(640, 480), (320, 240), (160, 120), (80, 60), (40, 30), (20, 15)] := by decide +kernel

end Nx
