import Verif.Model.SfmtSse
import Verif.Props.Sfmt

/-!
# C135: the SSE2 code gives the numbers of the portable code
-/

namespace Nx

theorem si_bv (a : W128) : a.si = a.bv := rfl

theorem lane_eq (x : BitVec 128) (j : Nat) : lane x j = x.extractLsb' (32 * j) 32 := rfl

theorem ofSi_bv (x : BitVec 128) : (W128.ofSi x).bv = x := by
  unfold W128.ofSi W128.bv
  apply BitVec.eq_of_getLsbD_eq
  intro i hi
  simp only [BitVec.getLsbD_append, BitVec.getLsbD_extractLsb']
  have h4 : i < 32 ∨ (32 ≤ i ∧ i < 64) ∨ (64 ≤ i ∧ i < 96) ∨ 96 ≤ i := by omega
  rcases h4 with h | ⟨h, h'⟩ | ⟨h, h'⟩ | h
  · simp [h]
  · simp [show ¬ i < 32 by omega, show i - 32 < 32 by omega, show 32 + (i - 32) = i by omega]
  · simp [show ¬ i < 32 by omega, show ¬ i - 32 < 32 by omega, show i - 32 - 32 < 32 by omega,
      show 64 + (i - 32 - 32) = i by omega]
  · simp [show ¬ i < 32 by omega, show ¬ i - 32 < 32 by omega, show ¬ i - 32 - 32 < 32 by omega,
      show i - 32 - 32 - 32 < 32 by omega, show 96 + (i - 32 - 32 - 32) = i by omega]

/-- The recursion on registers is the recursion of the generator. -/
theorem c135_recursion (a b c d : BitVec 128) : mmRecursion a b c d = sfmtRec a b c d := by
  have hm : sseMask.si = 0xbffffff6bffaffffddfecb7fdfffffef#128 := by decide +kernel
  have h1 : mmSrliEpi32 b 11 = map32 (· >>> 11) b := rfl
  have h2 : mmSlliEpi32 d 18 = map32 (· <<< 18) d := rfl
  unfold mmRecursion sfmtRec
  simp only
  rw [hm, h1, h2]
  simp only [mmSrliSi128, mmSlliSi128, Nat.reduceMul]
  ac_rfl

/-- The two recursions give the same words. -/
theorem c135_same_recursion (a b c d : W128) : W128.ofSi (mmRecursion a.si b.si c.si d.si) = doRecursion a b c d := by
  apply bv_injective
  rw [ofSi_bv, c135_recursion, doRecursion_bv]
  rfl

/-! ### `sfmt_gen_rand_all` -/

/-- What the loops keep. -/
def SseAllInv (w : Nat → BitVec 128) (p i : Nat) (s : SseAll) : Prop :=
  s.state.length = 156 ∧ (∀ j, j < i → Has s.state j (w (p + 156 + j))) ∧
    (∀ j, i ≤ j → j < 156 → Has s.state j (w (p + j))) ∧ s.r1 = w (p + i + 154) ∧ s.r2 = w (p + i + 155)

theorem SseAllInv.step {w : Nat → BitVec 128} {p i : Nat} {s : SseAll} (hw : IsSfmt w) (h : SseAllInv w p i s) (hi : i < 156)
    {k : Nat → Nat} (hk : k i = if i < 34 then i + 122 else i - 34) :
    ∃ s', sseAllBody k i s = .ok s' ∧ SseAllInv w p (i + 1) s' := by
  obtain ⟨hl, h1, h2, e1, e2⟩ := h
  have hb : Has s.state (k i) (w (p + i + 122)) := by
    rw [hk]
    split
    · exact (h2 (i + 122) (by omega) (by omega)).eq_of (congrArg w (by omega))
    · exact (h1 (i - 34) (by omega)).eq_of (congrArg w (by omega))
  obtain ⟨a, ea, ha⟩ := (h2 i (by omega) hi).read
  obtain ⟨b, eb, hb⟩ := hb.read
  have hx : (W128.ofSi (mmRecursion a.si b.si s.r1 s.r2)).bv = w (p + i + 156) := by
    rw [ofSi_bv, c135_recursion, si_bv, si_bv, ha, hb, e1, e2, hw (p + i)]
  have hlen : i < (s.state.set i (W128.ofSi (mmRecursion a.si b.si s.r1 s.r2))).length := by rw [List.length_set]; omega
  refine ⟨⟨s.state.set i (W128.ofSi (mmRecursion a.si b.si s.r1 s.r2)), s.r2, w (p + i + 156)⟩, ?_, by simpa using hl, ?_, ?_, ?_, ?_⟩
  · rw [sseAllBody, ea, eb]
    simp only [Res.ok_bind]
    rw [writeAt_ok _ (by omega)]
    simp only [Res.ok_bind]
    rw [readAt_ok hlen, List.getElem_set_self]
    simp only [Res.ok_bind, si_bv, Res.pure_eq]
    rw [← si_bv a, ← si_bv b, hx]
  · intro j hj
    by_cases hji : j = i
    · subst hji
      exact Has.set_self (by omega) (hx.trans (congrArg w (by omega)))
    · exact (h1 j (by omega)).set_ne (by omega)
  · intro j hj hj'
    exact (h2 j (by omega) hj').set_ne (by omega)
  · exact e2.trans (congrArg w (by omega))
  · exact congrArg w (by omega)

theorem sseGenAll_spec {w : Nat → BitVec 128} {p : Nat} {st : List W128} (hw : IsSfmt w) (h : Window w p st) :
    ∃ st', sseGenAll st = .ok st' ∧ Window w (p + 156) st' := by
  obtain ⟨hl, h'⟩ := window_iff.mp h
  obtain ⟨x1, q1, v1⟩ := (h' 154 (by omega)).read
  obtain ⟨x2, q2, v2⟩ := (h' 155 (by omega)).read
  have h0 : SseAllInv w p 0 ⟨st, x1.si, x2.si⟩ :=
    ⟨hl, fun j hj => absurd hj (by omega), fun j _ hj => h' j hj, v1, v2⟩
  obtain ⟨s1, e1, hs1⟩ := forLoop_spec (n := sfmtN - sfmtPos1) (body := sseAllBody fun i => i + sfmtPos1)
    (SseAllInv w p) (Nat.zero_le _) h0 (fun i s _ hi hs => by
      have hi' : i < 34 := hi
      exact hs.step hw (by omega) (by rw [if_pos hi']; rfl))
  obtain ⟨s2, e2, hs2⟩ := forLoop_spec (n := sfmtN) (body := sseAllBody fun i => i + sfmtPos1 - sfmtN)
    (SseAllInv w p) (by decide) hs1 (fun i s hi0 hi hs => by
      have hi' : i < 156 := hi
      have hi0' : 34 ≤ i := hi0
      refine hs.step hw hi' ?_
      rw [if_neg (by omega)]
      change i + 122 - 156 = i - 34
      omega)
  refine ⟨s2.state, ?_, ?_⟩
  · rw [sseGenAll, show sfmtN - 2 = 154 from rfl, show sfmtN - 1 = 155 from rfl, q1, q2]
    simp only [Res.ok_bind]
    rw [e1]
    simp only [Res.ok_bind]
    rw [e2]
    rfl
  · exact window_iff.mpr ⟨hs2.1, fun i hi => hs2.2.1 i hi⟩

/-- Words that show the same numbers are the same. -/
theorem has_ext {l l' : List W128} {n : Nat} {f : Nat → BitVec 128} (hl : l.length = n) (hl' : l'.length = n)
    (h : ∀ i, i < n → Has l i (f i)) (h' : ∀ i, i < n → Has l' i (f i)) : l = l' := by
  apply List.ext_getElem?
  intro i
  by_cases hi : i < n
  · obtain ⟨x, e, v⟩ := h i hi
    obtain ⟨y, e', v'⟩ := h' i hi
    rw [e, e', bv_injective (v.trans v'.symm)]
  · rw [List.getElem?_eq_none (by omega), List.getElem?_eq_none (by omega)]

/-- A pass over the state is the same with the SSE2 code. -/
theorem c135_gen_all {st : List W128} (hl : st.length = 156) : sseGenAll st = genRandAll st := by
  obtain ⟨w, hw, h⟩ := c70_sequence_exists st hl
  obtain ⟨a, ea, ha⟩ := sseGenAll_spec hw h
  obtain ⟨b, eb, hb⟩ := genRandAll_spec hw h
  have ha := window_iff.mp ha
  have hb := window_iff.mp hb
  rw [ea, eb, has_ext ha.1 hb.1 ha.2 hb.2]

/-- A number drawn is the same with the SSE2 code, and so is the generator afterwards. -/
theorem c135_draw {g : Sfmt} (hl : g.state.length = 156) : sseGenrand32 g = genrand32 g := by
  unfold sseGenrand32 genrand32 sseRefill refill
  rw [c135_gen_all hl]

/-! ### `gen_rand_array` -/

/-- What the first three loops keep. -/
def SseArrInv (w : Nat → BitVec 128) (p size i : Nat) (s : SseArr) : Prop :=
  s.state.length = 156 ∧ s.array.length = size ∧ (∀ j, j < 156 → Has s.state j (w (p + j))) ∧
    (∀ j, j < i → Has s.array j (w (p + 156 + j))) ∧ s.r1 = w (p + i + 154) ∧ s.r2 = w (p + i + 155)

theorem sseArrBody_spec {pa pb : Nat → WPtr} {i : Nat} {s : SseArr} {a b : W128} {v : BitVec 128} (ha : s.read (pa i) = .ok a)
    (hb : s.read (pb i) = .ok b) (hi : i < s.array.length) (hv : sfmtRec a.bv b.bv s.r1 s.r2 = v) :
    ∃ x, sseArrBody pa pb i s = .ok ⟨s.state, s.array.set i x, s.r2, v⟩ ∧ x.bv = v := by
  have hx : (W128.ofSi (mmRecursion a.si b.si s.r1 s.r2)).bv = v := by
    rw [ofSi_bv, c135_recursion, si_bv, si_bv, hv]
  have hlen : i < (s.array.set i (W128.ofSi (mmRecursion a.si b.si s.r1 s.r2))).length := by rw [List.length_set]; omega
  refine ⟨_, ?_, hx⟩
  rw [sseArrBody, ha, hb]
  simp only [Res.ok_bind]
  rw [writeAt_ok _ hi]
  simp only [Res.ok_bind]
  rw [readAt_ok hlen, List.getElem_set_self]
  simp only [Res.ok_bind, Res.pure_eq]
  rw [si_bv (W128.ofSi _), hx]

theorem SseArrInv.step {w : Nat → BitVec 128} {p size i : Nat} {s : SseArr} (hw : IsSfmt w) (h : SseArrInv w p size i s)
    (hi : i < size) {pa pb : Nat → WPtr} (ha : pa i = backPtr i 156) (hb : pb i = backPtr i 34) :
    ∃ s', sseArrBody pa pb i s = .ok s' ∧ SseArrInv w p size (i + 1) s' := by
  obtain ⟨hl, hla, h1, h2, e1, e2⟩ := h
  have key : ∀ b, 0 < b → b ≤ 156 → ∃ x, s.read (backPtr i b) = .ok x ∧ x.bv = w (p + i + (156 - b)) := by
    intro b hb0 hb1
    unfold backPtr
    split
    · exact ((h2 (i - b) (by omega)).eq_of (congrArg w (by omega))).read
    · exact ((h1 (156 + i - b) (by omega)).eq_of (congrArg w (by omega))).read
  obtain ⟨a, ea, va⟩ := key 156 (by omega) (by omega)
  obtain ⟨b, eb, vb⟩ := key 34 (by omega) (by omega)
  rw [← ha] at ea
  rw [← hb] at eb
  have va : a.bv = w (p + i) := va
  have vb : b.bv = w (p + i + 122) := vb
  obtain ⟨x, e, hx⟩ := sseArrBody_spec (v := w (p + i + 156)) ea eb (by omega) (by
    rw [va, vb, e1, e2, hw (p + i)])
  refine ⟨_, e, hl, by simpa using hla, h1, ?_, ?_, ?_⟩
  · intro j hj
    by_cases hji : j = i
    · subst hji
      exact Has.set_self (by omega) (hx.trans (congrArg w (by omega)))
    · exact (h2 j (by omega)).set_ne (by omega)
  · exact e2.trans (congrArg w (by omega))
  · exact congrArg w (by omega)

/-- What the last two loops keep. -/
def SseTailInv (w : Nat → BitVec 128) (p size i j : Nat) (s : SseArr) : Prop :=
  s.state.length = 156 ∧ s.array.length = size ∧ (∀ k, k < j → Has s.state k (w (p + size + k))) ∧
    (∀ k, k < i → Has s.array k (w (p + 156 + k))) ∧ s.r1 = w (p + i + 154) ∧ s.r2 = w (p + i + 155)

theorem sseArrCopy_step {w : Nat → BitVec 128} {p size i j : Nat} {s : SseArr} (h : SseTailInv w p size i j s)
    (hj : j < 2 * 156 - size) (hs : 156 ≤ size) (hi : 156 ≤ i) :
    ∃ s', sseArrCopy size j s = .ok s' ∧ SseTailInv w p size i (j + 1) s' := by
  obtain ⟨hl, hla, h1, h2, e1, e2⟩ := h
  obtain ⟨x, ex, hx⟩ := (h2 (j + size - 156) (by omega)).read
  refine ⟨{ s with state := s.state.set j x }, ?_, by simpa using hl, hla, ?_, h2, e1, e2⟩
  · rw [sseArrCopy, show sfmtN = 156 from rfl, ex]
    simp only [Res.ok_bind]
    rw [writeAt_ok _ (by omega)]
    rfl
  · intro k hk
    by_cases hkj : k = j
    · subst hkj
      exact Has.set_self (by omega) (hx.trans (congrArg w (by omega)))
    · exact (h1 k (by omega)).set_ne (by omega)

theorem sseArrLast_step {w : Nat → BitVec 128} {p size i i0 j0 : Nat} {s : SseArr} (hw : IsSfmt w)
    (h : SseTailInv w p size i (j0 + (i - i0)) s) (hi : i < size) (h0 : i0 ≤ i) (h156 : 156 ≤ i0)
    (hj : 156 + i0 = size + j0) :
    ∃ s', sseArrLast i0 j0 i s = .ok s' ∧ SseTailInv w p size (i + 1) (j0 + (i + 1 - i0)) s' := by
  obtain ⟨hl, hla, h1, h2, e1, e2⟩ := h
  obtain ⟨a, ea, va⟩ := ((h2 (i - 156) (by omega)).eq_of (v' := w (p + i)) (congrArg w (by omega))).read
  obtain ⟨b, eb, vb⟩ := ((h2 (i + 122 - 156) (by omega)).eq_of (v' := w (p + i + 122)) (congrArg w (by omega))).read
  obtain ⟨x, e, hx⟩ := sseArrBody_spec (pa := fun i => .arr (i - sfmtN)) (pb := fun i => .arr (i + sfmtPos1 - sfmtN))
    (v := w (p + i + 156)) ea eb (by omega) (by
      rw [va, vb, e1, e2, hw (p + i)])
  have hlen : i < (s.array.set i x).length := by rw [List.length_set]; omega
  refine ⟨⟨s.state.set (j0 + (i - i0)) x, s.array.set i x, s.r2, w (p + i + 156)⟩, ?_, by simpa using hl, by simpa using hla,
    ?_, ?_, ?_, ?_⟩
  · rw [sseArrLast, e]
    simp only [Res.ok_bind]
    rw [readAt_ok hlen, List.getElem_set_self]
    simp only [Res.ok_bind]
    rw [writeAt_ok _ (by omega)]
    rfl
  · intro k hk
    by_cases hkj : k = j0 + (i - i0)
    · subst hkj
      exact Has.set_self (by omega) (hx.trans (congrArg w (by omega)))
    · exact (h1 k (by omega)).set_ne (by omega)
  · intro k hk
    by_cases hki : k = i
    · subst hki
      exact Has.set_self (by omega) (hx.trans (congrArg w (by omega)))
    · exact (h2 k (by omega)).set_ne (by omega)
  · exact e2.trans (congrArg w (by omega))
  · exact congrArg w (by omega)

theorem sseGenArray_spec {w : Nat → BitVec 128} {p size addr : Nat} {st arr : List W128} (hw : IsSfmt w) (h : Window w p st)
    (hs : 156 ≤ size) (ha : arr.length = size) (hal : addr % 16 = 0) :
    ∃ st' arr', sseGenArray addr st arr size = .ok (st', arr') ∧ Window w (p + size) st' ∧ arr'.length = size ∧
      ∀ k, k < size → Has arr' k (w (p + 156 + k)) := by
  obtain ⟨hl, h'⟩ := window_iff.mp h
  obtain ⟨x1, q1, v1⟩ := (h' 154 (by omega)).read
  obtain ⟨x2, q2, v2⟩ := (h' 155 (by omega)).read
  have h0 : SseArrInv w p size 0 ⟨st, arr, x1.si, x2.si⟩ :=
    ⟨hl, ha, h', fun j hj => absurd hj (by omega), v1, v2⟩
  obtain ⟨s1, e1, hs1⟩ := forLoop_spec (n := sfmtN - sfmtPos1) (body := sseArrBody .st fun i => .st (i + sfmtPos1))
    (SseArrInv w p size) (Nat.zero_le _) h0 (fun i s _ hi hs' => by
      have hi' : i < 34 := hi
      refine hs'.step hw (by omega) ?_ ?_
      · rw [backPtr, if_neg (by omega)]
        exact congrArg WPtr.st (by omega)
      · rw [backPtr, if_neg (by omega)]
        exact congrArg WPtr.st (show i + 122 = _ by omega))
  obtain ⟨s2, e2, hs2⟩ := forLoop_spec (n := sfmtN) (body := sseArrBody .st fun i => .arr (i + sfmtPos1 - sfmtN))
    (SseArrInv w p size) (by decide) hs1 (fun i s hi0 hi hs' => by
      have hi' : i < 156 := hi
      have hi0' : 34 ≤ i := hi0
      refine hs'.step hw (by omega) ?_ ?_
      · rw [backPtr, if_neg (by omega)]
        exact congrArg WPtr.st (by omega)
      · rw [backPtr, if_pos (by omega)]
        exact congrArg WPtr.arr (show i + 122 - 156 = _ by omega))
  have h3 : ∃ s3, forLoop (size - sfmtN) (sseArrBody (fun i => .arr (i - sfmtN)) fun i => .arr (i + sfmtPos1 - sfmtN)) sfmtN s2
      = .ok s3 ∧ SseArrInv w p size (max sfmtN (size - sfmtN)) s3 := by
    by_cases hc : sfmtN ≤ size - sfmtN
    · rw [Nat.max_eq_right hc]
      exact forLoop_spec (SseArrInv w p size) hc hs2 (fun i s hi0 hi hs' => by
        have hi' : i < size - 156 := hi
        have hi0' : 156 ≤ i := hi0
        refine hs'.step hw (by omega) ?_ ?_
        · rw [backPtr, if_pos (by omega)]
          rfl
        · rw [backPtr, if_pos (by omega)]
          exact congrArg WPtr.arr (show i + 122 - 156 = _ by omega))
    · rw [Nat.max_eq_left (by omega)]
      refine ⟨s2, ?_, hs2⟩
      rw [forLoop, if_neg (by omega)]
  obtain ⟨s3, e3, hs3⟩ := h3
  have hN : sfmtN = 156 := rfl
  have hi156 : 156 ≤ max sfmtN (size - sfmtN) := by rw [hN]; omega
  generalize hi : max sfmtN (size - sfmtN) = i at hs3 hi156
  have ht0 : SseTailInv w p size i 0 s3 :=
    ⟨hs3.1, hs3.2.1, fun k hk => absurd hk (by omega), hs3.2.2.2.1, hs3.2.2.2.2⟩
  obtain ⟨s4, e4, hs4⟩ := forLoop_spec (n := 2 * sfmtN - size) (body := sseArrCopy size)
    (SseTailInv w p size i) (Nat.zero_le _) ht0 (fun j s _ hj hs' => sseArrCopy_step hs' hj hs hi156)
  have hile : i ≤ size := by rw [hN] at hi; omega
  have hij : 156 + i = size + (2 * 156 - size) := by rw [hN] at hi; omega
  obtain ⟨s5, e5, hs5⟩ := forLoop_spec (n := size) (body := sseArrLast i (2 * sfmtN - size))
    (fun k => SseTailInv w p size k (2 * 156 - size + (k - i))) hile (i0 := i) (s := s4)
    (by rw [Nat.sub_self]; exact hs4)
    (fun k s hk0 hk hs' => sseArrLast_step hw hs' hk hk0 hi156 hij)
  refine ⟨s5.state, s5.array, ?_, window_iff.mpr ⟨hs5.1, fun k hk => hs5.2.2.1 k (by omega)⟩, hs5.2.1, hs5.2.2.2.1⟩
  rw [sseGenArray, if_neg (by omega), show sfmtN - 2 = 154 from rfl, show sfmtN - 1 = 155 from rfl, q1, q2]
  simp only [Res.ok_bind]
  rw [e1]
  simp only [Res.ok_bind]
  rw [e2]
  simp only [Res.ok_bind]
  rw [e3]
  simp only [Res.ok_bind]
  rw [e4]
  simp only [Res.ok_bind]
  rw [hi, e5]
  rfl

/-- Filling an aligned array is the same with the SSE2 code: the array and the state. -/
theorem c135_gen_array {st arr : List W128} {size addr : Nat} (hl : st.length = 156) (ha : arr.length = size) (hs : 156 ≤ size)
    (hal : addr % 16 = 0) : sseGenArray addr st arr size = genRandArray st arr size := by
  obtain ⟨w, hw, h⟩ := c70_sequence_exists st hl
  obtain ⟨a, a', ea, ha1, ha2, ha3⟩ := sseGenArray_spec hw h hs ha hal
  obtain ⟨b, b', eb, hb1, hb2, hb3⟩ := genRandArray_spec hw h hs ha
  have ha1 := window_iff.mp ha1
  have hb1 := window_iff.mp hb1
  rw [ea, eb, has_ext ha1.1 hb1.1 ha1.2 hb1.2, has_ext ha2 hb2 ha3 hb3]

/-- `sfmt_fill_array32` is the same with the SSE2 code. -/
theorem c135_fill {g : Sfmt} {arr : List W128} {size addr : Nat} (hl : g.state.length = 156) (ha : arr.length = size / 4)
    (hal : addr % 16 = 0) : sseFillArray32 addr g arr size = fillArray32 g arr size := by
  unfold sseFillArray32 fillArray32
  by_cases h : g.idx = sfmtN32 ∧ size % 4 = 0 ∧ size ≥ sfmtN32
  · have hs : 624 ≤ size := h.2.2
    rw [if_pos h, if_pos h, c135_gen_array hl ha (by omega) hal]
  · rw [if_neg h, if_neg h]

/-- Not for every address of an array of 32 bit words. -/
theorem c135_unaligned {g : Sfmt} {arr : List W128} {addr : Nat} (hi : g.idx = 624) (hal : addr % 16 ≠ 0) :
    sseFillArray32 addr g arr 624 = .ub := by
  unfold sseFillArray32
  rw [if_pos ⟨hi, rfl, Nat.le_refl _⟩, sseGenArray, if_pos hal]
  rfl

/-- A program that draws numbers and fills arrays. -/
inductive SfmtCall where
  | draw
  | fill (addr : Nat) (arr : List W128) (size : Nat)

/-- A call with the portable code: the numbers given and the generator. -/
def runPortable : SfmtCall → Sfmt → Res ((BitVec 32 ⊕ List W128) × Sfmt)
  | .draw, g => do
    let r ← genrand32 g
    pure (.inl r.1, r.2)
  | .fill _ arr size, g => do
    let r ← fillArray32 g arr size
    pure (.inr r.1, r.2)

/-- A call with the SSE2 code. -/
def runSse : SfmtCall → Sfmt → Res ((BitVec 32 ⊕ List W128) × Sfmt)
  | .draw, g => do
    let r ← sseGenrand32 g
    pure (.inl r.1, r.2)
  | .fill addr arr size, g => do
    let r ← sseFillArray32 addr g arr size
    pure (.inr r.1, r.2)

/-- The results of a list of calls. -/
def runSfmtCalls (run : SfmtCall → Sfmt → Res ((BitVec 32 ⊕ List W128) × Sfmt)) :
    List SfmtCall → Sfmt → Res (List (BitVec 32 ⊕ List W128) × Sfmt)
  | [], g => .ok ([], g)
  | c :: cs, g => do
    let r ← run c g
    let rs ← runSfmtCalls run cs r.2
    pure (r.1 :: rs.1, rs.2)

/-- The arrays that are filled are aligned and have the length that is given. -/
def GoodCall : SfmtCall → Prop
  | .draw => True
  | .fill addr arr size => addr % 16 = 0 ∧ arr.length = size / 4

theorem genrand32_length {g g' : Sfmt} {r : BitVec 32} (hl : g.state.length = 156) (h : genrand32 g = .ok (r, g')) :
    g'.state.length = 156 := by
  rw [genrand32, Res.bind_eq_ok] at h
  obtain ⟨g1, h1, h⟩ := h
  rw [Res.bind_eq_ok] at h
  obtain ⟨x, -, h⟩ := h
  cases h
  simp only
  unfold refill at h1
  split at h1
  · obtain ⟨w, hw, hwin⟩ := c70_sequence_exists g.state hl
    obtain ⟨b, eb, hb⟩ := genRandAll_spec hw hwin
    rw [eb] at h1
    cases h1
    exact hb.1
  · cases h1
    exact hl

theorem fillArray32_length {g g' : Sfmt} {arr arr' : List W128} {size : Nat} (hl : g.state.length = 156)
    (ha : arr.length = size / 4) (h : fillArray32 g arr size = .ok (arr', g')) : g'.state.length = 156 := by
  unfold fillArray32 at h
  split at h
  · rename_i hc
    have hs : 624 ≤ size := hc.2.2
    obtain ⟨w, hw, hwin⟩ := c70_sequence_exists g.state hl
    obtain ⟨b, b', eb, hb, -⟩ := genRandArray_spec hw hwin (size := size / 4) (by omega) ha
    rw [eb] at h
    cases h
    exact hb.1
  · cases h

/-- Every program of draws and fills, also those that stop at a failed assertion, gives the same with both. -/
theorem c135_program (cs : List SfmtCall) (hc : ∀ c ∈ cs, GoodCall c) {g : Sfmt} (hl : g.state.length = 156) :
    runSfmtCalls runSse cs g = runSfmtCalls runPortable cs g := by
  induction cs generalizing g with
  | nil => rfl
  | cons c cs ih =>
    have hc0 := hc c (List.mem_cons_self ..)
    have h1 : runSse c g = runPortable c g := by
      cases c with
      | draw => rw [runSse, runPortable, c135_draw hl]
      | fill addr arr size => rw [runSse, runPortable, c135_fill hl hc0.2 hc0.1]
    rw [runSfmtCalls, runSfmtCalls, h1]
    cases h2 : runPortable c g with
    | ok r =>
      have hr : r.2.state.length = 156 := by
        cases c with
        | draw =>
          rw [runPortable, Res.bind_eq_ok] at h2
          obtain ⟨x, hx, h2⟩ := h2
          cases h2
          exact genrand32_length hl hx
        | fill addr arr size =>
          rw [runPortable, Res.bind_eq_ok] at h2
          obtain ⟨x, hx, h2⟩ := h2
          cases h2
          exact fillArray32_length hl hc0.2 hx
      rw [Res.ok_bind, Res.ok_bind, ih (fun c' h' => hc c' (List.mem_cons_of_mem _ h')) hr]
    | fatal => rfl
    | ub => rfl

/-- A program that meets the hypotheses. -/
example : (∀ c ∈ [SfmtCall.draw, .fill 64 (List.replicate 200 ⟨1, 2, 3, 4⟩) 800, .draw], GoodCall c) ∧
    (List.replicate 156 (W128.mk 5 6 7 8)).length = 156 := by
  constructor
  · intro c hc
    simp only [List.mem_cons, List.not_mem_nil, or_false] at hc
    rcases hc with rfl | rfl | rfl
    · trivial
    · exact ⟨rfl, by rw [List.length_replicate]⟩
    · trivial
  · rw [List.length_replicate]

end Nx
