import Verif.Spec.Sfmt
import Verif.Lemmas.Sample

/-!
# Lemmas about the random number generator
-/

namespace Nx

theorem toNat_or_shift (hi lo : BitVec 32) :
    ((hi.setWidth 64 <<< 32) ||| lo.setWidth 64 : BitVec 64).toNat = 4294967296 * hi.toNat + lo.toNat := by
  have h1 := hi.isLt
  have h2 := lo.isLt
  rw [BitVec.toNat_or, BitVec.toNat_shiftLeft, BitVec.toNat_setWidth, BitVec.toNat_setWidth, Nat.shiftLeft_eq,
    Nat.mod_eq_of_lt (a := hi.toNat) (by omega), Nat.mod_eq_of_lt (a := lo.toNat) (by omega),
    Nat.mod_eq_of_lt (by omega), Nat.mul_comm]
  exact (Nat.two_pow_add_eq_or_of_lt (i := 32) h2 hi.toNat).symm

theorem bv_toNat (a : W128) :
    a.bv.toNat = 18446744073709551616 * a.th.toNat + a.tl.toNat := by
  rw [W128.th, W128.tl, toNat_or_shift, toNat_or_shift]
  have h0 := a.u0.isLt
  have h1 := a.u1.isLt
  have h2 := a.u2.isLt
  unfold W128.bv
  rw [BitVec.toNat_append, BitVec.toNat_append, BitVec.toNat_append, Nat.shiftLeft_eq, Nat.shiftLeft_eq, Nat.shiftLeft_eq,
    Nat.mul_comm _ (2 ^ 32), Nat.mul_comm _ (2 ^ 32), Nat.mul_comm _ (2 ^ 32),
    ← Nat.two_pow_add_eq_or_of_lt h2, ← Nat.two_pow_add_eq_or_of_lt h1, ← Nat.two_pow_add_eq_or_of_lt h0]
  omega

theorem ofHalves_toNat (oh ol : BitVec 64) :
    (W128.ofHalves oh ol).bv.toNat = 18446744073709551616 * oh.toNat + ol.toNat := by
  rw [bv_toNat, W128.th, W128.tl, toNat_or_shift, toNat_or_shift]
  have h1 := oh.isLt
  have h2 := ol.isLt
  simp only [W128.ofHalves, BitVec.toNat_setWidth, BitVec.toNat_ushiftRight, Nat.shiftRight_eq_div_pow]
  omega

theorem rshift128_bv (a : W128) : (rshift128 a 1).bv = a.bv >>> 8 := by
  apply BitVec.eq_of_toNat_eq
  have h1 := a.th.isLt
  have h2 := a.tl.isLt
  rw [rshift128, ofHalves_toNat, BitVec.toNat_ushiftRight, BitVec.toNat_ushiftRight, bv_toNat, BitVec.toNat_or,
    BitVec.toNat_ushiftRight, BitVec.toNat_shiftLeft, Nat.shiftLeft_eq, Nat.shiftRight_eq_div_pow, Nat.shiftRight_eq_div_pow,
    Nat.shiftRight_eq_div_pow]
  have hor : a.tl.toNat / 2 ^ (1 * 8) ||| a.th.toNat * 2 ^ (64 - 1 * 8) % 2 ^ 64
      = 2 ^ 56 * (a.th.toNat % 256) + a.tl.toNat / 256 := by
    have e : a.th.toNat * 2 ^ (64 - 1 * 8) % 2 ^ 64 = 2 ^ 56 * (a.th.toNat % 256) := by omega
    rw [e, Nat.or_comm, Nat.two_pow_add_eq_or_of_lt (by omega)]
  rw [hor]
  omega

theorem lshift128_bv (a : W128) : (lshift128 a 1).bv = a.bv <<< 8 := by
  apply BitVec.eq_of_toNat_eq
  have h1 := a.th.isLt
  have h2 := a.tl.isLt
  rw [lshift128, ofHalves_toNat, BitVec.toNat_shiftLeft, BitVec.toNat_shiftLeft, bv_toNat, BitVec.toNat_or,
    BitVec.toNat_ushiftRight, BitVec.toNat_shiftLeft, Nat.shiftLeft_eq, Nat.shiftLeft_eq, Nat.shiftLeft_eq,
    Nat.shiftRight_eq_div_pow]
  have hor : a.th.toNat * 2 ^ (1 * 8) % 2 ^ 64 ||| a.tl.toNat / 2 ^ (64 - 1 * 8)
      = 2 ^ 8 * (a.th.toNat % 2 ^ 56) + a.tl.toNat / 2 ^ 56 := by
    have e : a.th.toNat * 2 ^ (1 * 8) % 2 ^ 64 = 2 ^ 8 * (a.th.toNat % 2 ^ 56) := by omega
    rw [e, Nat.two_pow_add_eq_or_of_lt (by omega)]
  rw [hor]
  omega

theorem lane_bv (a : W128) : lane a.bv 0 = a.u0 ∧ lane a.bv 1 = a.u1 ∧ lane a.bv 2 = a.u2 ∧ lane a.bv 3 = a.u3 := by
  have hn := bv_toNat a
  rw [W128.th, W128.tl, toNat_or_shift, toNat_or_shift] at hn
  have h0 := a.u0.isLt
  have h1 := a.u1.isLt
  have h2 := a.u2.isLt
  have h3 := a.u3.isLt
  refine ⟨?_, ?_, ?_, ?_⟩ <;>
  · apply BitVec.eq_of_toNat_eq
    rw [lane, BitVec.extractLsb'_toNat, hn, Nat.shiftRight_eq_div_pow]
    omega

theorem W128.ext {a b : W128} (h0 : a.u0 = b.u0) (h1 : a.u1 = b.u1) (h2 : a.u2 = b.u2) (h3 : a.u3 = b.u3) : a = b := by
  obtain ⟨a0, a1, a2, a3⟩ := a
  obtain ⟨b0, b1, b2, b3⟩ := b
  simp only at h0 h1 h2 h3
  rw [h0, h1, h2, h3]

theorem bv_injective {a b : W128} (h : a.bv = b.bv) : a = b := by
  obtain ⟨a0, a1, a2, a3⟩ := lane_bv a
  obtain ⟨b0, b1, b2, b3⟩ := lane_bv b
  rw [h] at a0 a1 a2 a3
  exact W128.ext (a0.symm.trans b0) (a1.symm.trans b1) (a2.symm.trans b2) (a3.symm.trans b3)

/-- The word with given parts. -/
theorem bv_mk (a b c d : BitVec 32) : (W128.mk a b c d).bv = d ++ c ++ b ++ a := rfl

theorem bv_xor (a b : W128) : (W128.mk (a.u0 ^^^ b.u0) (a.u1 ^^^ b.u1) (a.u2 ^^^ b.u2) (a.u3 ^^^ b.u3)).bv = a.bv ^^^ b.bv := by
  unfold W128.bv
  change _ = ((a.u3 ++ a.u2 ++ a.u1 ++ a.u0 : BitVec (32 + 32 + 32 + 32)) ^^^ (b.u3 ++ b.u2 ++ b.u1 ++ b.u0))
  rw [BitVec.xor_append, BitVec.xor_append, BitVec.xor_append]

theorem bv_and (a b : W128) : (W128.mk (a.u0 &&& b.u0) (a.u1 &&& b.u1) (a.u2 &&& b.u2) (a.u3 &&& b.u3)).bv = a.bv &&& b.bv := by
  unfold W128.bv
  change _ = ((a.u3 ++ a.u2 ++ a.u1 ++ a.u0 : BitVec (32 + 32 + 32 + 32)) &&& (b.u3 ++ b.u2 ++ b.u1 ++ b.u0))
  rw [BitVec.and_append, BitVec.and_append, BitVec.and_append]

theorem bv_map (f : BitVec 32 → BitVec 32) (a : W128) : (W128.mk (f a.u0) (f a.u1) (f a.u2) (f a.u3)).bv = map32 f a.bv := by
  obtain ⟨a0, a1, a2, a3⟩ := lane_bv a
  rw [map32, a0, a1, a2, a3]
  rfl

/-- The code of the recursion computes the recursion. -/
theorem doRecursion_bv (a b c d : W128) : (doRecursion a b c d).bv = sfmtRec a.bv b.bv c.bv d.bv := by
  have hm : (0xbffffff6bffaffffddfecb7fdfffffef#128)
      = (W128.mk 0xdfffffef#32 0xddfecb7f#32 0xbffaffff#32 0xbffffff6#32).bv := by
    decide +kernel
  rw [sfmtRec, ← lshift128_bv, ← rshift128_bv, ← bv_map, ← bv_map, hm, ← bv_and, ← bv_xor, ← bv_xor, ← bv_xor, ← bv_xor]
  rfl

/-- The word of a list at an index has a value. -/
def Has (l : List W128) (i : Nat) (v : BitVec 128) : Prop := ∃ x, l[i]? = some x ∧ x.bv = v

theorem Has.set_ne {l : List W128} {i j : Nat} {v : BitVec 128} {x : W128} (h : Has l j v) (hn : i ≠ j) :
    Has (l.set i x) j v := by
  obtain ⟨y, e, hv⟩ := h
  exact ⟨y, by rw [List.getElem?_set_ne hn, e], hv⟩

theorem Has.set_self {l : List W128} {i : Nat} {v : BitVec 128} {x : W128} (hi : i < l.length) (hx : x.bv = v) :
    Has (l.set i x) i v := ⟨x, List.getElem?_set_self hi, hx⟩

theorem readAt_some' {α : Type} {l : List α} {i : Nat} {x : α} (h : l[i]? = some x) : readAt l i = .ok x := by
  obtain ⟨hi, e⟩ := List.getElem?_eq_some_iff.mp h
  rw [readAt_ok hi, e]

theorem Has.read {l : List W128} {i : Nat} {v : BitVec 128} (h : Has l i v) : ∃ x, readAt l i = .ok x ∧ x.bv = v := by
  obtain ⟨x, e, hv⟩ := h
  exact ⟨x, readAt_some' e, hv⟩

theorem Has.eq_of {l : List W128} {i : Nat} {v v' : BitVec 128} (h : Has l i v) (e : v = v') : Has l i v' := e ▸ h

theorem window_iff {w : Nat → BitVec 128} {p : Nat} {st : List W128} :
    Window w p st ↔ st.length = 156 ∧ ∀ i, i < 156 → Has st i (w (p + i)) := by
  constructor
  · intro ⟨hl, h⟩
    refine ⟨hl, fun i hi => ?_⟩
    have hi' : i < st.length := by omega
    exact ⟨st[i], List.getElem?_eq_getElem hi', h i _ (List.getElem?_eq_getElem hi')⟩
  · intro ⟨hl, h⟩
    refine ⟨hl, fun i x e => ?_⟩
    have hi : i < st.length := (List.getElem?_eq_some_iff.mp e).1
    obtain ⟨y, ey, hy⟩ := h i (by omega)
    rw [e] at ey
    cases ey
    exact hy

theorem genAllBody_spec {k : Nat → Nat} {i : Nat} {s : GenAll} {a b c d : BitVec 128} (ha : Has s.state i a)
    (hb : Has s.state (k i) b) (hc : Has s.state s.r1 c) (hd : Has s.state s.r2 d) :
    ∃ x, genAllBody k i s = .ok ⟨s.state.set i x, s.r2, i⟩ ∧ x.bv = sfmtRec a b c d := by
  obtain ⟨a', ea, rfl⟩ := ha.read
  obtain ⟨b', eb, rfl⟩ := hb.read
  obtain ⟨c', ec, rfl⟩ := hc.read
  obtain ⟨d', ed, rfl⟩ := hd.read
  refine ⟨doRecursion a' b' c' d', ?_, doRecursion_bv _ _ _ _⟩
  obtain ⟨_, e, _⟩ := ha
  have hi : i < s.state.length := (List.getElem?_eq_some_iff.mp e).1
  rw [genAllBody, ea, eb, ec, ed]
  simp only [Res.ok_bind]
  rw [writeAt_ok _ hi]
  rfl

/-- What the loops of `sfmt_gen_rand_all` keep. -/
def AllInv (w : Nat → BitVec 128) (p i : Nat) (s : GenAll) : Prop :=
  s.state.length = 156 ∧ (∀ j, j < i → Has s.state j (w (p + 156 + j))) ∧
    (∀ j, i ≤ j → j < 156 → Has s.state j (w (p + j))) ∧
    s.r1 = (if i < 2 then 154 + i else i - 2) ∧ s.r2 = (if i < 1 then 155 else i - 1)

theorem AllInv.step {w : Nat → BitVec 128} {p i : Nat} {s : GenAll} (hw : IsSfmt w) (h : AllInv w p i s) (hi : i < 156)
    {k : Nat → Nat} (hk : k i = if i < 34 then i + 122 else i - 34) :
    ∃ s', genAllBody k i s = .ok s' ∧ AllInv w p (i + 1) s' := by
  obtain ⟨hl, h1, h2, e1, e2⟩ := h
  have hb : Has s.state (k i) (w (p + i + 122)) := by
    rw [hk]
    split
    · exact (h2 (i + 122) (by omega) (by omega)).eq_of (congrArg w (by omega))
    · exact (h1 (i - 34) (by omega)).eq_of (congrArg w (by omega))
  have hc : Has s.state s.r1 (w (p + i + 154)) := by
    rw [e1]
    split
    · exact (h2 (154 + i) (by omega) (by omega)).eq_of (congrArg w (by omega))
    · exact (h1 (i - 2) (by omega)).eq_of (congrArg w (by omega))
  have hd : Has s.state s.r2 (w (p + i + 155)) := by
    rw [e2]
    split
    · exact (h2 155 (by omega) (by omega)).eq_of (congrArg w (by omega))
    · exact (h1 (i - 1) (by omega)).eq_of (congrArg w (by omega))
  obtain ⟨x, e, hx⟩ := genAllBody_spec (h2 i (by omega) hi) hb hc hd
  rw [← hw (p + i)] at hx
  refine ⟨_, e, by simpa using hl, ?_, ?_, ?_, ?_⟩
  · intro j hj
    by_cases hji : j = i
    · subst hji
      exact Has.set_self (by omega) (hx.trans (congrArg w (by omega)))
    · exact (h1 j (by omega)).set_ne (by omega)
  · intro j hj hj'
    exact (h2 j (by omega) hj').set_ne (by omega)
  · simp only
    rw [e2]
    split <;> split <;> omega
  · simp

theorem genRandAll_spec {w : Nat → BitVec 128} {p : Nat} {st : List W128} (hw : IsSfmt w) (h : Window w p st) :
    ∃ st', genRandAll st = .ok st' ∧ Window w (p + 156) st' := by
  obtain ⟨hl, h'⟩ := window_iff.mp h
  have h0 : AllInv w p 0 ⟨st, sfmtN - 2, sfmtN - 1⟩ := by
    refine ⟨hl, fun j hj => absurd hj (by omega), fun j _ hj => h' j hj, rfl, rfl⟩
  obtain ⟨s1, e1, hs1⟩ := forLoop_spec (n := sfmtN - sfmtPos1) (body := genAllBody fun i => i + sfmtPos1)
    (AllInv w p) (Nat.zero_le _) h0 (fun i s _ hi hs => by
      have hi' : i < 34 := hi
      exact hs.step hw (by omega) (by rw [if_pos hi']; rfl))
  obtain ⟨s2, e2, hs2⟩ := forLoop_spec (n := sfmtN) (body := genAllBody fun i => i + sfmtPos1 - sfmtN)
    (AllInv w p) (by decide) hs1 (fun i s hi0 hi hs => by
      have hi' : i < 156 := hi
      have hi0' : 34 ≤ i := hi0
      refine hs.step hw hi' ?_
      rw [if_neg (by omega)]
      change i + 122 - 156 = i - 34
      omega)
  refine ⟨s2.state, ?_, ?_⟩
  · rw [genRandAll, e1]
    simp only [Res.ok_bind]
    rw [e2]
    rfl
  · exact window_iff.mpr ⟨hs2.1, fun i hi => hs2.2.1 i hi⟩

/-! ### Filling an array -/

/-- The pointer to the word `b` places before index `i` of the array, which continues the state. -/
def backPtr (i b : Nat) : WPtr := if b ≤ i then .arr (i - b) else .st (156 + i - b)

/-- What the first three loops of `gen_rand_array` keep. -/
def ArrInv (w : Nat → BitVec 128) (p size i : Nat) (s : GenArr) : Prop :=
  s.state.length = 156 ∧ s.array.length = size ∧ (∀ j, j < 156 → Has s.state j (w (p + j))) ∧
    (∀ j, j < i → Has s.array j (w (p + 156 + j))) ∧ s.r1 = backPtr i 2 ∧ s.r2 = backPtr i 1

/-- What is read through a pointer. -/
def GenArr.Points (s : GenArr) (q : WPtr) (v : BitVec 128) : Prop := ∃ x, s.read q = .ok x ∧ x.bv = v

theorem points_arr {s : GenArr} {i : Nat} {v : BitVec 128} (h : Has s.array i v) : s.Points (.arr i) v := h.read
theorem points_st {s : GenArr} {i : Nat} {v : BitVec 128} (h : Has s.state i v) : s.Points (.st i) v := h.read

theorem genArrBody_spec {pa pb : Nat → WPtr} {i : Nat} {s : GenArr} {a b c d : BitVec 128} (ha : s.Points (pa i) a)
    (hb : s.Points (pb i) b) (hc : s.Points s.r1 c) (hd : s.Points s.r2 d) (hi : i < s.array.length) :
    ∃ x, genArrBody pa pb i s = .ok ⟨s.state, s.array.set i x, s.r2, .arr i⟩ ∧ x.bv = sfmtRec a b c d := by
  obtain ⟨a', ea, rfl⟩ := ha
  obtain ⟨b', eb, rfl⟩ := hb
  obtain ⟨c', ec, rfl⟩ := hc
  obtain ⟨d', ed, rfl⟩ := hd
  refine ⟨doRecursion a' b' c' d', ?_, doRecursion_bv _ _ _ _⟩
  rw [genArrBody, ea, eb, ec, ed]
  simp only [Res.ok_bind]
  rw [writeAt_ok _ hi]
  rfl

theorem ArrInv.points {w : Nat → BitVec 128} {p size i b : Nat} {s : GenArr} (h : ArrInv w p size i s) (hb : b ≤ 156)
    (hb0 : 0 < b) : s.Points (backPtr i b) (w (p + i + (156 - b))) := by
  obtain ⟨-, -, h1, h2, -, -⟩ := h
  unfold backPtr
  split
  · exact points_arr ((h2 (i - b) (by omega)).eq_of (congrArg w (by omega)))
  · exact points_st ((h1 (156 + i - b) (by omega)).eq_of (congrArg w (by omega)))

theorem ArrInv.step {w : Nat → BitVec 128} {p size i : Nat} {s : GenArr} (hw : IsSfmt w) (h : ArrInv w p size i s)
    (hi : i < size) {pa pb : Nat → WPtr} (ha : pa i = backPtr i 156) (hb : pb i = backPtr i 34) :
    ∃ s', genArrBody pa pb i s = .ok s' ∧ ArrInv w p size (i + 1) s' := by
  have qa := h.points (b := 156) (by omega) (by omega)
  have qb := h.points (b := 34) (by omega) (by omega)
  have qc := h.points (b := 2) (by omega) (by omega)
  have qd := h.points (b := 1) (by omega) (by omega)
  obtain ⟨hl, hla, h1, h2, e1, e2⟩ := h
  rw [← ha] at qa
  rw [← hb] at qb
  rw [← e1] at qc
  rw [← e2] at qd
  obtain ⟨x, e, hx⟩ := genArrBody_spec qa qb qc qd (by omega)
  rw [show p + i + (156 - 156) = p + i from rfl, ← hw (p + i)] at hx
  refine ⟨_, e, hl, by simpa using hla, h1, ?_, ?_, ?_⟩
  · intro j hj
    by_cases hji : j = i
    · subst hji
      exact Has.set_self (by omega) (hx.trans (congrArg w (by omega)))
    · exact (h2 j (by omega)).set_ne (by omega)
  · simp only
    rw [e2]
    unfold backPtr
    split <;> split <;> first | omega | rfl | exact congrArg _ (by omega)
  · simp only [backPtr]
    rw [if_pos (by omega), Nat.add_sub_cancel]

/-- What the last two loops of `gen_rand_array` keep: the state is overwritten with the end of the array. -/
def TailInv (w : Nat → BitVec 128) (p size i j : Nat) (s : GenArr) : Prop :=
  s.state.length = 156 ∧ s.array.length = size ∧ (∀ k, k < j → Has s.state k (w (p + size + k))) ∧
    (∀ k, k < i → Has s.array k (w (p + 156 + k))) ∧ s.r1 = backPtr i 2 ∧ s.r2 = backPtr i 1

theorem genArrCopy_step {w : Nat → BitVec 128} {p size i j : Nat} {s : GenArr} (h : TailInv w p size i j s)
    (hj : j < 2 * 156 - size) (hs : 156 ≤ size) (hi : 156 ≤ i) :
    ∃ s', genArrCopy size j s = .ok s' ∧ TailInv w p size i (j + 1) s' := by
  obtain ⟨hl, hla, h1, h2, e1, e2⟩ := h
  obtain ⟨x, ex, hx⟩ := (h2 (j + size - 156) (by omega)).read
  refine ⟨{ s with state := s.state.set j x }, ?_, by simpa using hl, hla, ?_, h2, e1, e2⟩
  · rw [genArrCopy, show sfmtN = 156 from rfl, ex]
    simp only [Res.ok_bind]
    rw [writeAt_ok _ (by omega)]
    rfl
  · intro k hk
    by_cases hkj : k = j
    · subst hkj
      exact Has.set_self (by omega) (hx.trans (congrArg w (by omega)))
    · exact (h1 k (by omega)).set_ne (by omega)

theorem genArrLast_step {w : Nat → BitVec 128} {p size i i0 j0 : Nat} {s : GenArr} (hw : IsSfmt w)
    (h : TailInv w p size i (j0 + (i - i0)) s) (hi : i < size) (h0 : i0 ≤ i) (h156 : 156 ≤ i0)
    (hj : 156 + i0 = size + j0) :
    ∃ s', genArrLast i0 j0 i s = .ok s' ∧ TailInv w p size (i + 1) (j0 + (i + 1 - i0)) s' := by
  obtain ⟨hl, hla, h1, h2, e1, e2⟩ := h
  have qa : s.Points (.arr (i - 156)) (w (p + i)) := points_arr ((h2 (i - 156) (by omega)).eq_of (congrArg w (by omega)))
  have qb : s.Points (.arr (i + 122 - 156)) (w (p + i + 122)) :=
    points_arr ((h2 (i + 122 - 156) (by omega)).eq_of (congrArg w (by omega)))
  have qc : s.Points s.r1 (w (p + i + 154)) := by
    rw [e1, backPtr, if_pos (by omega)]
    exact points_arr ((h2 (i - 2) (by omega)).eq_of (congrArg w (by omega)))
  have qd : s.Points s.r2 (w (p + i + 155)) := by
    rw [e2, backPtr, if_pos (by omega)]
    exact points_arr ((h2 (i - 1) (by omega)).eq_of (congrArg w (by omega)))
  obtain ⟨x, e, hx⟩ := genArrBody_spec (pa := fun i => .arr (i - sfmtN)) (pb := fun i => .arr (i + sfmtPos1 - sfmtN))
    qa qb qc qd (by omega)
  rw [← hw (p + i)] at hx
  have hlen : i < (s.array.set i x).length := by rw [List.length_set]; omega
  refine ⟨⟨s.state.set (j0 + (i - i0)) x, s.array.set i x, s.r2, .arr i⟩, ?_, by simpa using hl, by simpa using hla, ?_, ?_, ?_, ?_⟩
  · rw [genArrLast, e]
    simp only [Res.ok_bind]
    rw [readAt_ok hlen, List.getElem_set_self]
    simp only [Res.ok_bind]
    rw [writeAt_ok _ (by omega)]
    rfl
  · intro k hk
    by_cases hkj : k = j0 + (i - i0)
    · subst hkj
      exact Has.set_self (by omega) (hx.trans (congrArg w (by omega)))
    · exact (h1 k (by omega)).set_ne (by omega)
  · intro k hk
    by_cases hki : k = i
    · subst hki
      exact Has.set_self (by omega) (hx.trans (congrArg w (by omega)))
    · exact (h2 k (by omega)).set_ne (by omega)
  · simp only
    rw [e2]
    unfold backPtr
    rw [if_pos (by omega), if_pos (by omega)]
    congr 1
  · simp only [backPtr]
    rw [if_pos (by omega), Nat.add_sub_cancel]

theorem genRandArray_spec {w : Nat → BitVec 128} {p size : Nat} {st arr : List W128} (hw : IsSfmt w) (h : Window w p st)
    (hs : 156 ≤ size) (ha : arr.length = size) :
    ∃ st' arr', genRandArray st arr size = .ok (st', arr') ∧ Window w (p + size) st' ∧ arr'.length = size ∧
      ∀ k, k < size → Has arr' k (w (p + 156 + k)) := by
  obtain ⟨hl, h'⟩ := window_iff.mp h
  have h0 : ArrInv w p size 0 ⟨st, arr, .st (sfmtN - 2), .st (sfmtN - 1)⟩ :=
    ⟨hl, ha, h', fun j hj => absurd hj (by omega), rfl, rfl⟩
  obtain ⟨s1, e1, hs1⟩ := forLoop_spec (n := sfmtN - sfmtPos1) (body := genArrBody .st fun i => .st (i + sfmtPos1))
    (ArrInv w p size) (Nat.zero_le _) h0 (fun i s _ hi hs' => by
      have hi' : i < 34 := hi
      refine hs'.step hw (by omega) ?_ ?_
      · rw [backPtr, if_neg (by omega)]
        exact congrArg WPtr.st (by omega)
      · rw [backPtr, if_neg (by omega)]
        exact congrArg WPtr.st (show i + 122 = _ by omega))
  obtain ⟨s2, e2, hs2⟩ := forLoop_spec (n := sfmtN) (body := genArrBody .st fun i => .arr (i + sfmtPos1 - sfmtN))
    (ArrInv w p size) (by decide) hs1 (fun i s hi0 hi hs' => by
      have hi' : i < 156 := hi
      have hi0' : 34 ≤ i := hi0
      refine hs'.step hw (by omega) ?_ ?_
      · rw [backPtr, if_neg (by omega)]
        exact congrArg WPtr.st (by omega)
      · rw [backPtr, if_pos (by omega)]
        exact congrArg WPtr.arr (show i + 122 - 156 = _ by omega))
  have h3 : ∃ s3, forLoop (size - sfmtN) (genArrBody (fun i => .arr (i - sfmtN)) fun i => .arr (i + sfmtPos1 - sfmtN)) sfmtN s2
      = .ok s3 ∧ ArrInv w p size (max sfmtN (size - sfmtN)) s3 := by
    by_cases hc : sfmtN ≤ size - sfmtN
    · rw [Nat.max_eq_right hc]
      exact forLoop_spec (ArrInv w p size) hc hs2 (fun i s hi0 hi hs' => by
        have hi' : i < size - 156 := hi
        have hi0' : 156 ≤ i := hi0
        refine hs'.step hw (by omega) ?_ ?_
        · rw [backPtr, if_pos (by omega)]
          rfl
        · rw [backPtr, if_pos (by omega)]
          exact congrArg WPtr.arr (show i + 122 - 156 = _ by omega))
    · rw [Nat.max_eq_left (by omega)]
      refine ⟨s2, ?_, hs2⟩
      rw [forLoop, if_neg (by omega)]
  obtain ⟨s3, e3, hs3⟩ := h3
  have hN : sfmtN = 156 := rfl
  have hi156 : 156 ≤ max sfmtN (size - sfmtN) := by rw [hN]; omega
  generalize hi : max sfmtN (size - sfmtN) = i at hs3 hi156
  have ht0 : TailInv w p size i 0 s3 :=
    ⟨hs3.1, hs3.2.1, fun k hk => absurd hk (by omega), hs3.2.2.2.1, hs3.2.2.2.2⟩
  obtain ⟨s4, e4, hs4⟩ := forLoop_spec (n := 2 * sfmtN - size) (body := genArrCopy size)
    (TailInv w p size i) (Nat.zero_le _) ht0 (fun j s _ hj hs' => genArrCopy_step hs' hj hs hi156)
  have hile : i ≤ size := by rw [hN] at hi; omega
  have hij : 156 + i = size + (2 * 156 - size) := by rw [hN] at hi; omega
  obtain ⟨s5, e5, hs5⟩ := forLoop_spec (n := size) (body := genArrLast i (2 * sfmtN - size))
    (fun k => TailInv w p size k (2 * 156 - size + (k - i))) hile (i0 := i) (s := s4)
    (by rw [Nat.sub_self]; exact hs4)
    (fun k s hk0 hk hs' => genArrLast_step hw hs' hk hk0 hi156 hij)
  refine ⟨s5.state, s5.array, ?_, window_iff.mpr ⟨hs5.1, fun k hk => hs5.2.2.1 k (by omega)⟩, hs5.2.1, hs5.2.2.2.1⟩
  rw [genRandArray, e1]
  simp only [Res.ok_bind]
  rw [e2]
  simp only [Res.ok_bind]
  rw [e3]
  simp only [Res.ok_bind]
  rw [e4]
  simp only [Res.ok_bind]
  rw [hi, e5]
  rfl

end Nx
