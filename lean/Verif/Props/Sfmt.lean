import Verif.Lemmas.Sfmt

/-!
# C70: the random number generator gives the sequence of SFMT19937
-/

namespace Nx

/-- Each state is the start of exactly one sequence. -/
def sfmtSeq (st : Nat → BitVec 128) (i : Nat) : BitVec 128 :=
  if h : i < 156 then st i
  else sfmtRec (sfmtSeq st (i - 156)) (sfmtSeq st (i - 34)) (sfmtSeq st (i - 2)) (sfmtSeq st (i - 1))
termination_by i

theorem c70_sequence_exists (st : List W128) (hl : st.length = 156) : ∃ w, IsSfmt w ∧ Window w 0 st := by
  refine ⟨sfmtSeq fun i => ((st[i]?).map W128.bv).getD 0, ?_, hl, ?_⟩
  · intro i
    rw [sfmtSeq, dif_neg (by omega), show i + 156 - 156 = i by omega, show i + 156 - 34 = i + 122 by omega,
      show i + 156 - 2 = i + 154 by omega, show i + 156 - 1 = i + 155 by omega]
  · intro i x hx
    have hi := (List.getElem?_eq_some_iff.mp hx).1
    rw [sfmtSeq, dif_pos (by omega), Nat.zero_add, hx]
    rfl

theorem c70_sequence_unique {w w' : Nat → BitVec 128} {p : Nat} {st : List W128} (hw : IsSfmt w) (hw' : IsSfmt w')
    (h : Window w p st) (h' : Window w' p st) : ∀ i, w (p + i) = w' (p + i) := by
  intro i
  induction i using Nat.strongRecOn with
  | _ i ih =>
    by_cases hi : i < 156
    · obtain ⟨x, e, hx⟩ := (window_iff.mp h).2 i hi
      rw [← hx]
      exact h'.2 i x e
    · have e := hw (p + (i - 156))
      have e' := hw' (p + (i - 156))
      rw [show p + (i - 156) + 156 = p + i by omega, show p + (i - 156) + 122 = p + (i - 34) by omega,
        show p + (i - 156) + 154 = p + (i - 2) by omega, show p + (i - 156) + 155 = p + (i - 1) by omega] at e e'
      rw [e, e', ih (i - 156) (by omega), ih (i - 34) (by omega), ih (i - 2) (by omega), ih (i - 1) (by omega)]

theorem c70_recursion (a b c d : W128) : (doRecursion a b c d).bv = sfmtRec a.bv b.bv c.bv d.bv := doRecursion_bv a b c d

/-- One pass over the state moves the window by its length. -/
theorem c70_gen_all {w : Nat → BitVec 128} {p : Nat} {st : List W128} (hw : IsSfmt w) (h : Window w p st) :
    ∃ st', genRandAll st = .ok st' ∧ Window w (p + 156) st' := genRandAll_spec hw h

/-! ### 32 bit words -/

theorem pick_lane (x : W128) {j : Nat} (hj : j < 4) :
    (if j = 0 then x.u0 else if j = 1 then x.u1 else if j = 2 then x.u2 else x.u3) = lane x.bv j := by
  obtain ⟨h0, h1, h2, h3⟩ := lane_bv x
  by_cases j0 : j = 0
  · rw [if_pos j0, j0, h0]
  by_cases j1 : j = 1
  · rw [if_neg j0, if_pos j1, j1, h1]
  by_cases j2 : j = 2
  · rw [if_neg j0, if_neg j1, if_pos j2, j2, h2]
  · rw [if_neg j0, if_neg j1, if_neg j2, show j = 3 by omega, h3]

theorem readWord_ok {l : List W128} {i : Nat} {x : W128} (h : l[i / 4]? = some x) :
    readWord l i = .ok (lane x.bv (i % 4)) := by
  rw [readWord, readAt_some' h]
  simp only [Res.ok_bind]
  rw [pick_lane x (Nat.mod_lt _ (by omega))]
  rfl

theorem Window.readWord {w : Nat → BitVec 128} {p i : Nat} {st : List W128} (h : Window w p st) (hi : i < 624) :
    readWord st i = .ok (word32 w (4 * p + i)) := by
  obtain ⟨x, e, hx⟩ := (window_iff.mp h).2 (i / 4) (by omega)
  rw [readWord_ok e, hx, word32, show (4 * p + i) / 4 = p + i / 4 by omega, show (4 * p + i) % 4 = i % 4 by omega]

theorem refill_spec {w : Nat → BitVec 128} {k : Nat} {g : Sfmt} (hw : IsSfmt w) (h : Emits w k g) :
    ∃ g', refill g = .ok g' ∧ Emits w k g' ∧ g'.idx < 624 := by
  obtain ⟨hi, p, hp, hk⟩ := h
  have h624 : sfmtN32 = 624 := rfl
  rw [refill]
  by_cases hc : g.idx ≥ sfmtN32
  · rw [if_pos hc]
    obtain ⟨st', e, hst'⟩ := genRandAll_spec hw hp
    refine ⟨⟨st', 0⟩, by rw [e]; rfl, ⟨by simp, p + 156, hst', ?_⟩, by simp⟩
    simp only
    omega
  · rw [if_neg hc]
    exact ⟨g, rfl, ⟨hi, p, hp, hk⟩, by omega⟩

/-- `sfmt_genrand_uint32` gives the next number of the sequence. -/
theorem c70_next {w : Nat → BitVec 128} {k : Nat} {g : Sfmt} (hw : IsSfmt w) (h : Emits w k g) :
    ∃ g', genrand32 g = .ok (word32 w k, g') ∧ Emits w (k + 1) g' := by
  obtain ⟨g1, e, ⟨hi, p, hp, hk⟩, hlt⟩ := refill_spec hw h
  refine ⟨{ g1 with idx := g1.idx + 1 }, ?_, ⟨hlt, p, hp, by simp only; omega⟩⟩
  rw [genrand32, e]
  simp only [Res.ok_bind]
  rw [hp.readWord hlt, hk]
  rfl

/-- `sfmt_genrand_uint64` gives the next two numbers, the first is the low part. -/
theorem c70_next64 {w : Nat → BitVec 128} {k : Nat} {g : Sfmt} (hw : IsSfmt w) (h : Emits w k g) (hk : k % 2 = 0) :
    ∃ g', genrand64 g = .ok (word32 w (k + 1) ++ word32 w k, g') ∧ Emits w (k + 2) g' := by
  have hpar : ¬ g.idx % 2 ≠ 0 := by
    obtain ⟨_, p, _, hk'⟩ := h
    omega
  obtain ⟨g1, e, ⟨hi, p, hp, hk'⟩, hlt⟩ := refill_spec hw h
  have hlt' : g1.idx + 1 < 624 := by omega
  refine ⟨{ g1 with idx := g1.idx + 2 }, ?_, ⟨by simp only; omega, p, hp, by simp only; omega⟩⟩
  rw [genrand64, if_neg hpar, e]
  simp only [Res.ok_bind]
  rw [hp.readWord hlt, hp.readWord hlt', ← Nat.add_assoc, hk']
  rfl

/-- At an odd position the 64 bit numbers are refused. -/
theorem c70_next64_odd {w : Nat → BitVec 128} {k : Nat} {g : Sfmt} (h : Emits w k g) (hk : k % 2 = 1) :
    genrand64 g = .fatal := by
  obtain ⟨_, p, _, hk'⟩ := h
  rw [genrand64, if_pos (by omega)]

/-- `n` calls of `sfmt_genrand_uint32`. -/
def draws : Nat → Sfmt → Res (List (BitVec 32) × Sfmt)
  | 0, g => .ok ([], g)
  | n + 1, g => do
    let r ← genrand32 g
    let s ← draws n r.2
    pure (r.1 :: s.1, s.2)

/-- Any number of calls gives the numbers of the sequence in order. -/
theorem c70_stream {w : Nat → BitVec 128} (hw : IsSfmt w) (n : Nat) {k : Nat} {g : Sfmt} (h : Emits w k g) :
    ∃ g', draws n g = .ok ((List.range n).map fun i => word32 w (k + i), g') ∧ Emits w (k + n) g' := by
  induction n generalizing k g with
  | zero => exact ⟨g, rfl, h⟩
  | succ n ih =>
    obtain ⟨g1, e1, h1⟩ := c70_next hw h
    obtain ⟨g2, e2, h2⟩ := ih h1
    refine ⟨g2, ?_, by rw [show k + (n + 1) = k + 1 + n by omega]; exact h2⟩
    rw [draws, e1]
    simp only [Res.ok_bind]
    rw [e2]
    simp only [Res.ok_bind]
    rw [List.range_succ_eq_map, List.map_cons, List.map_map]
    have : (fun i => word32 w (k + 1 + i)) = (fun i => word32 w (k + i)) ∘ Nat.succ := by
      funext i
      simp only [Function.comp_apply, Nat.succ_eq_add_one]
      rw [show k + 1 + i = k + (i + 1) by omega]
    rw [this]
    rfl

/-- `sfmt_fill_array32` gives the numbers that single calls would give. -/
theorem c70_fill {w : Nat → BitVec 128} {k size : Nat} {g : Sfmt} {arr : List W128} (hw : IsSfmt w) (h : Emits w k g)
    (hidx : g.idx = 624) (hs : 624 ≤ size) (h4 : size % 4 = 0) (ha : arr.length = size / 4) :
    ∃ arr' g', fillArray32 g arr size = .ok (arr', g') ∧ Emits w (k + size) g' ∧ g'.idx = 624 ∧ arr'.length = size / 4 ∧
      ∀ i, i < size → readWord arr' i = .ok (word32 w (k + i)) := by
  obtain ⟨_, p, hp, hk⟩ := h
  obtain ⟨st', arr', e, hst, hl, harr⟩ := genRandArray_spec (size := size / 4) hw hp (by omega) ha
  refine ⟨arr', ⟨st', sfmtN32⟩, ?_, ⟨Nat.le_refl 624, p + size / 4, hst, ?_⟩, rfl, hl, ?_⟩
  · rw [fillArray32, if_pos ⟨hidx, h4, hs⟩, e]
    rfl
  · change 4 * (p + size / 4) + 624 = _
    omega
  · intro i hi
    obtain ⟨x, ex, hx⟩ := harr (i / 4) (by omega)
    rw [readWord_ok ex, hx, word32, show (k + i) / 4 = p + 156 + i / 4 by omega, show (k + i) % 4 = i % 4 by omega]

/-- Filling an array and drawing one by one agree, and leave generators that continue alike. -/
theorem c70_fill_eq_draws {k size : Nat} {g : Sfmt} {arr : List W128} (hst : g.state.length = 156)
    (hidx : g.idx = 624) (hs : 624 ≤ size) (h4 : size % 4 = 0) (ha : arr.length = size / 4) :
    ∃ arr' g1 l g2, fillArray32 g arr size = .ok (arr', g1) ∧ draws size g = .ok (l, g2) ∧
      (∀ i, i < size → ∃ v, l[i]? = some v ∧ readWord arr' i = .ok v) ∧
      ∃ l' g1' g2', draws k g1 = .ok (l', g1') ∧ draws k g2 = .ok (l', g2') := by
  obtain ⟨w, hw, hwin⟩ := c70_sequence_exists g.state hst
  have he : Emits w 624 g := ⟨by omega, 0, hwin, by omega⟩
  obtain ⟨arr', g1, e1, h1, _, _, hr⟩ := c70_fill hw he hidx hs h4 ha
  obtain ⟨g2, e2, h2⟩ := c70_stream hw size he
  obtain ⟨g1', e3, _⟩ := c70_stream hw k h1
  obtain ⟨g2', e4, _⟩ := c70_stream hw k h2
  refine ⟨arr', g1, _, g2, e1, e2, fun i hi => ⟨_, ?_, hr i hi⟩, _, g1', g2', e3, e4⟩
  rw [List.getElem?_map, List.getElem?_range hi]
  rfl

/-! ### The seed -/

/-- The 32 bit word of a list of 128 bit words. -/
def wordAt (l : List W128) (i : Nat) : Option (BitVec 32) := (l[i / 4]?).map fun x => lane x.bv (i % 4)

theorem wordAt_readWord {l : List W128} {i : Nat} {v : BitVec 32} (h : wordAt l i = some v) : readWord l i = .ok v := by
  rw [wordAt, Option.map_eq_some_iff] at h
  obtain ⟨x, e, rfl⟩ := h
  exact readWord_ok e

theorem writeWord_spec {l : List W128} {i : Nat} (x : BitVec 32) (hi : i / 4 < l.length) :
    ∃ l', writeWord l i x = .ok l' ∧ l'.length = l.length ∧ ∀ j, wordAt l' j = if j = i then some x else wordAt l j := by
  have key : ∀ (y : W128) (m : Nat), m < 4 → ∃ z : W128,
      (if m = 0 then { y with u0 := x } else if m = 1 then { y with u1 := x }
        else if m = 2 then { y with u2 := x } else { y with u3 := x }) = z ∧
      lane z.bv m = x ∧ ∀ n, n < 4 → n ≠ m → lane z.bv n = lane y.bv n := by
    intro y m hm
    obtain ⟨y0, y1, y2, y3⟩ := lane_bv y
    refine ⟨_, rfl, ?_⟩
    have h4 : ∀ n, n < 4 → n = 0 ∨ n = 1 ∨ n = 2 ∨ n = 3 := by omega
    rcases h4 m hm with rfl | rfl | rfl | rfl
    · obtain ⟨z0, z1, z2, z3⟩ := lane_bv { y with u0 := x }
      refine ⟨z0, fun n hn hne => ?_⟩
      rcases h4 n hn with rfl | rfl | rfl | rfl
      · exact absurd rfl hne
      · exact z1.trans y1.symm
      · exact z2.trans y2.symm
      · exact z3.trans y3.symm
    · obtain ⟨z0, z1, z2, z3⟩ := lane_bv { y with u1 := x }
      refine ⟨z1, fun n hn hne => ?_⟩
      rcases h4 n hn with rfl | rfl | rfl | rfl
      · exact z0.trans y0.symm
      · exact absurd rfl hne
      · exact z2.trans y2.symm
      · exact z3.trans y3.symm
    · obtain ⟨z0, z1, z2, z3⟩ := lane_bv { y with u2 := x }
      refine ⟨z2, fun n hn hne => ?_⟩
      rcases h4 n hn with rfl | rfl | rfl | rfl
      · exact z0.trans y0.symm
      · exact z1.trans y1.symm
      · exact absurd rfl hne
      · exact z3.trans y3.symm
    · obtain ⟨z0, z1, z2, z3⟩ := lane_bv { y with u3 := x }
      refine ⟨z3, fun n hn hne => ?_⟩
      rcases h4 n hn with rfl | rfl | rfl | rfl
      · exact z0.trans y0.symm
      · exact z1.trans y1.symm
      · exact z2.trans y2.symm
      · exact absurd rfl hne
  obtain ⟨z, ez, hz, hz'⟩ := key l[i / 4] (i % 4) (Nat.mod_lt _ (by omega))
  refine ⟨l.set (i / 4) z, ?_, by simp, ?_⟩
  · rw [writeWord, readAt_ok hi]
    simp only [Res.ok_bind]
    rw [ez, writeAt_ok _ hi]
  · intro j
    rw [wordAt, wordAt, List.getElem?_set]
    by_cases hj : j = i
    · subst hj
      rw [if_pos rfl, if_pos hi, if_pos rfl, Option.map_some, hz]
    · rw [if_neg hj]
      by_cases hq : i / 4 = j / 4
      · rw [if_pos hq, if_pos hi, ← hq, List.getElem?_eq_getElem hi, Option.map_some, Option.map_some,
          hz' (j % 4) (Nat.mod_lt _ (by omega)) (by omega)]
      · rw [if_neg hq]

/-! ### Parity -/

/-- The exclusive or of the bits. -/
def parityOf {n : Nat} (x : BitVec n) : Bool := (List.range n).foldl (fun b i => b ^^ x.getLsbD i) false

theorem foldl_xor_count (f : Nat → Bool) (l : List Nat) (b : Bool) :
    (l.foldl (fun b i => b ^^ f i) b) = (b ^^ decide (l.countP f % 2 = 1)) := by
  induction l generalizing b with
  | nil => simp
  | cons a l ih =>
    rw [List.foldl_cons, ih, List.countP_cons]
    cases hf : f a
    · simp
    · have : decide ((l.countP f + 1) % 2 = 1) = !decide (l.countP f % 2 = 1) := by
        rw [Bool.eq_iff_iff]
        simp only [Bool.not_eq_true', decide_eq_true_eq, decide_eq_false_iff_not]
        omega
      rw [if_pos rfl, this]
      cases b <;> simp

theorem parityOf_eq {n : Nat} (x : BitVec n) : parityOf x = decide (bitCount x % 2 = 1) := by
  rw [parityOf, foldl_xor_count, Bool.false_xor]
  rfl

theorem foldl_xor_start (f : Nat → Bool) (l : List Nat) (b : Bool) :
    l.foldl (fun b i => b ^^ f i) b = (b ^^ l.foldl (fun b i => b ^^ f i) false) := by
  rw [foldl_xor_count, foldl_xor_count f l false, Bool.false_xor]

theorem foldl_xor_xor (f g : Nat → Bool) (l : List Nat) (b : Bool) :
    l.foldl (fun b i => b ^^ (f i ^^ g i)) b
      = (b ^^ (l.foldl (fun b i => b ^^ f i) false ^^ l.foldl (fun b i => b ^^ g i) false)) := by
  induction l generalizing b with
  | nil => simp
  | cons a l ih =>
    rw [List.foldl_cons, List.foldl_cons, List.foldl_cons, ih, foldl_xor_start f l (false ^^ f a), foldl_xor_start g l (false ^^ g a)]
    generalize l.foldl (fun b i => b ^^ f i) false = p
    generalize l.foldl (fun b i => b ^^ g i) false = q
    cases b <;> cases f a <;> cases g a <;> cases p <;> cases q <;> rfl

theorem parityOf_xor {n : Nat} (x y : BitVec n) : parityOf (x ^^^ y) = (parityOf x ^^ parityOf y) := by
  have := foldl_xor_xor (fun i => x.getLsbD i) (fun i => y.getLsbD i) (List.range n) false
  rw [Bool.false_xor] at this
  rw [parityOf, parityOf, parityOf, ← this]
  simp only [BitVec.getLsbD_xor]

theorem foldl_xor_congr {f g : Nat → Bool} {l : List Nat} (h : ∀ i ∈ l, f i = g i) (b : Bool) :
    l.foldl (fun b i => b ^^ f i) b = l.foldl (fun b i => b ^^ g i) b := by
  induction l generalizing b with
  | nil => rfl
  | cons a l ih =>
    rw [List.foldl_cons, List.foldl_cons, h a (by simp)]
    exact ih (fun i hi => h i (by simp [hi])) _

theorem parityOf_append {n m : Nat} (x : BitVec n) (y : BitVec m) : parityOf (x ++ y) = (parityOf y ^^ parityOf x) := by
  have hr : List.range (n + m) = List.range m ++ (List.range n).map (m + ·) := by rw [Nat.add_comm, List.range_add]
  rw [parityOf, hr, List.foldl_append, foldl_xor_start, List.foldl_map]
  congr 1
  · rw [parityOf]
    refine foldl_xor_congr (fun i hi => ?_) _
    rw [BitVec.getLsbD_append, if_pos (List.mem_range.mp hi)]
  · rw [parityOf]
    refine foldl_xor_congr (f := fun i => (x ++ y).getLsbD (m + i)) (fun i hi => ?_) _
    rw [BitVec.getLsbD_append, if_neg (by omega), show m + i - m = i by omega]

theorem parity_fold (x : BitVec 32) :
    ([16, 8, 4, 2, 1].foldl (fun x i => x ^^^ (x >>> i)) x).getLsbD 0 = parityOf x := by
  have hr : List.range 32 = [0, 1, 2, 3, 4, 5, 6, 7, 8, 9, 10, 11, 12, 13, 14, 15, 16, 17, 18, 19, 20, 21, 22, 23, 24, 25,
    26, 27, 28, 29, 30, 31] := by decide +kernel
  rw [parityOf, hr]
  simp only [List.foldl_cons, List.foldl_nil, BitVec.getLsbD_xor, BitVec.getLsbD_ushiftRight, Nat.reduceAdd,
    Bool.false_xor]
  have : Std.Commutative Bool.xor := ⟨Bool.xor_comm⟩
  ac_rfl

theorem bit0_of_and_one (x : BitVec 32) : (x &&& 1 = 1) ↔ x.getLsbD 0 = true := by
  constructor
  · intro h
    have := congrArg (fun y : BitVec 32 => y.getLsbD 0) h
    simpa using this
  · intro h
    apply BitVec.eq_of_getLsbD_eq
    intro i hi
    rw [BitVec.getLsbD_and]
    by_cases h0 : i = 0
    · subst h0
      simp [h]
    · have : (1 : BitVec 32).getLsbD i = false := by
        rw [show (1 : BitVec 32) = 1#32 from rfl, BitVec.getLsbD_one]
        simp [h0]
      rw [this, Bool.and_false]

theorem parityInner_spec (w : W128) : parityInner w = 1 ↔ Certified w.bv := by
  have hP : (0x13c9e684000000000000000000000001#128)
      = (W128.mk 0x00000001#32 0x00000000#32 0x00000000#32 0x13c9e684#32).bv := by
    decide +kernel
  have h1 : parityOf (w.bv &&& 0x13c9e684000000000000000000000001#128) = parityOf
      (0 ^^^ (w.u0 &&& 0x00000001#32) ^^^ (w.u1 &&& 0x00000000#32) ^^^ (w.u2 &&& 0x00000000#32) ^^^ (w.u3 &&& 0x13c9e684#32)) := by
    rw [hP, ← bv_and, bv_mk, parityOf_append, parityOf_append, parityOf_append, parityOf_xor, parityOf_xor, parityOf_xor,
      parityOf_xor]
    have : parityOf (0 : BitVec 32) = false := by decide +kernel
    rw [this, Bool.false_xor]
    ac_rfl
  rw [Certified, ← decide_eq_true_iff (p := bitCount _ % 2 = 1), ← parityOf_eq, h1, ← parity_fold, ← bit0_of_and_one]
  rfl

theorem certified_flip {w : W128} (h : ¬ Certified w.bv) : Certified (W128.mk (w.u0 ^^^ 1) w.u1 w.u2 w.u3).bv := by
  have e : (W128.mk (w.u0 ^^^ 1) w.u1 w.u2 w.u3).bv = w.bv ^^^ 1#128 := by
    have h1 : (1#128) = (W128.mk 1 0 0 0).bv := by decide +kernel
    rw [h1, ← bv_xor]
    simp
  rw [Certified, ← decide_eq_true_iff (p := bitCount _ % 2 = 1), ← parityOf_eq] at h ⊢
  have hd : ∀ a b c : BitVec 128, (a ^^^ b) &&& c = (a &&& c) ^^^ (b &&& c) := by
    intro a b c
    apply BitVec.eq_of_getLsbD_eq
    intro i _
    simp only [BitVec.getLsbD_and, BitVec.getLsbD_xor]
    cases a.getLsbD i <;> cases b.getLsbD i <;> cases c.getLsbD i <;> rfl
  rw [e, hd, parityOf_xor]
  have h2 : parityOf (1#128 &&& 0x13c9e684000000000000000000000001#128) = true := by decide +kernel
  rw [h2]
  simpa using h

theorem findBit_parity : findBit 0x00000001#32 32 1 = some 1 := by
  decide +kernel

/-- `period_certification` changes at most the lowest bit of the first word, and certifies. -/
theorem c70_certification {st : List W128} {x : W128} {xs : List W128} (h : st = x :: xs) :
    ∃ y, periodCertification st = .ok (y :: xs) ∧ Certified y.bv ∧
      (y = x ∨ (¬ Certified x.bv ∧ y = { x with u0 := x.u0 ^^^ 1 })) := by
  subst h
  have hr : readAt (x :: xs) 0 = .ok x := readAt_some' rfl
  rw [periodCertification, hr]
  simp only [Res.ok_bind]
  by_cases hc : Certified x.bv
  · rw [if_pos ((parityInner_spec x).mpr hc)]
    exact ⟨x, rfl, hc, .inl rfl⟩
  · rw [if_neg (fun h => hc ((parityInner_spec x).mp h))]
    refine ⟨{ x with u0 := x.u0 ^^^ 1 }, ?_, certified_flip hc, .inr ⟨hc, rfl⟩⟩
    rw [sfmtParity, flipLoop.eq_def]
    simp only [findBit_parity]
    have hr0 : readWord (x :: xs) 0 = .ok x.u0 := by rw [readWord_ok (x := x) rfl, (lane_bv x).1]
    rw [hr0]
    rfl

/-- `sfmt_init_gen_rand`: the seed is expanded with the recurrence of Knuth, then certified; the generator then gives the
sequence from its 624th number on. -/
theorem c70_init (st : List W128) (hl : st.length = 156) (seed : BitVec 32) :
    ∃ g w, initGenRand st seed = .ok g ∧ IsSfmt w ∧ Emits w 624 g ∧ Certified (w 0) ∧
      (∀ i, 0 < i → i < 624 → word32 w i = knuthSeq seed i) ∧
      (word32 w 0 = seed ∨ word32 w 0 = seed ^^^ 1) := by
  obtain ⟨st1, e1, l1, h1⟩ := writeWord_spec (l := st) (i := 0) seed (by omega)
  obtain ⟨st2, e2, l2, h2⟩ := forLoop_spec (n := sfmtN32) (body := initBody) (i0 := 1) (s := st1)
    (fun i s => s.length = 156 ∧ ∀ j, j < i → wordAt s j = some (knuthSeq seed j)) (by decide)
    ⟨by omega, fun j hj => by rw [h1, if_pos (by omega), show j = 0 by omega]; rfl⟩
    (fun i s hi0 hi ⟨hls, hs⟩ => by
      have hi' : i < 624 := hi
      obtain ⟨s', e, hl', hs'⟩ := writeWord_spec (l := s) (i := i)
        (1812433253#32 * (knuthSeq seed (i - 1) ^^^ (knuthSeq seed (i - 1) >>> 30)) + BitVec.ofNat 32 i) (by omega)
      refine ⟨s', ?_, by omega, fun j hj => ?_⟩
      · rw [initBody, wordAt_readWord (hs (i - 1) (by omega))]
        exact e
      · rw [hs']
        by_cases hji : j = i
        · rw [if_pos hji, hji]
          obtain ⟨m, rfl⟩ : ∃ m, i = m + 1 := ⟨i - 1, by omega⟩
          rw [knuthSeq]
          rfl
        · rw [if_neg hji]
          exact hs j (by omega))
  obtain ⟨x, xs, rfl⟩ : ∃ x xs, st2 = x :: xs := by
    cases st2 with
    | nil => simp at l2
    | cons x xs => exact ⟨x, xs, rfl⟩
  obtain ⟨y, e3, hy, hyx⟩ := c70_certification (st := x :: xs) rfl
  have ly : (y :: xs).length = 156 := l2
  obtain ⟨w, hw, hwin⟩ := c70_sequence_exists (y :: xs) ly
  refine ⟨⟨y :: xs, sfmtN32⟩, w, ?_, hw, ⟨Nat.le_refl 624, 0, hwin, rfl⟩, ?_, ?_, ?_⟩
  · rw [initGenRand, e1]
    simp only [Res.ok_bind]
    rw [e2]
    simp only [Res.ok_bind]
    rw [e3]
    rfl
  · rw [← Nat.zero_add 0, ← hwin.2 0 y rfl]
    exact hy
  · intro i hi0 hi
    have hk := h2 i hi
    rw [wordAt, Option.map_eq_some_iff] at hk
    obtain ⟨z, ez, hz⟩ := hk
    rw [word32]
    by_cases hq : i / 4 = 0
    · rw [hq] at ez ⊢
      cases ez
      rw [← Nat.zero_add 0, ← hwin.2 0 y rfl]
      rcases hyx with rfl | ⟨_, rfl⟩
      · exact hz
      · rw [← hz]
        obtain ⟨a0, a1, a2, a3⟩ := lane_bv x
        obtain ⟨b0, b1, b2, b3⟩ := lane_bv { x with u0 := x.u0 ^^^ 1 }
        have h4 : i = 1 ∨ i = 2 ∨ i = 3 := by omega
        rcases h4 with rfl | rfl | rfl
        · exact b1.trans a1.symm
        · exact b2.trans a2.symm
        · exact b3.trans a3.symm
    · obtain ⟨m, hm⟩ : ∃ m, i / 4 = m + 1 := ⟨i / 4 - 1, by omega⟩
      rw [hm] at ez ⊢
      have ez' : (y :: xs)[m + 1]? = some z := ez
      rw [← Nat.zero_add (m + 1), ← hwin.2 (m + 1) z ez', hz]
  · have hk := h2 0 (by decide)
    have hz : lane x.bv 0 = seed := by
      have : wordAt (x :: xs) 0 = some (lane x.bv 0) := rfl
      rw [this, Option.some.injEq] at hk
      exact hk
    rw [word32, Nat.zero_div, Nat.zero_mod, ← Nat.zero_add 0, ← hwin.2 0 y rfl]
    rw [(lane_bv x).1] at hz
    rcases hyx with rfl | ⟨_, rfl⟩
    · exact .inl ((lane_bv _).1.trans hz)
    · right
      rw [(lane_bv _).1, hz]

/-- The numbers after seeding. -/
theorem c70_seeded_stream (st : List W128) (hl : st.length = 156) (seed : BitVec 32) (n : Nat) :
    ∃ g w g', initGenRand st seed = .ok g ∧ IsSfmt w ∧ Certified (w 0) ∧
      (∀ i, 0 < i → i < 624 → word32 w i = knuthSeq seed i) ∧ (word32 w 0 = seed ∨ word32 w 0 = seed ^^^ 1) ∧
      draws n g = .ok ((List.range n).map fun i => word32 w (624 + i), g') := by
  obtain ⟨g, w, e, hw, he, hc, hk, h0⟩ := c70_init st hl seed
  obtain ⟨g', e', _⟩ := c70_stream hw n he
  exact ⟨g, w, g', e, hw, hc, hk, h0, e'⟩

/-! ### The state never becomes zero -/

theorem shift_fixed_zero {a : BitVec 128} (h : a ^^^ (a <<< 8) = 0) : a = 0 := by
  apply BitVec.eq_of_getLsbD_eq
  intro i
  induction i using Nat.strongRecOn with
  | _ i ih =>
    intro hi
    have hb := congrArg (fun y : BitVec 128 => y.getLsbD i) h
    simp only [BitVec.getLsbD_xor, BitVec.getLsbD_shiftLeft, BitVec.ofNat_eq_ofNat, BitVec.getLsbD_zero] at hb ⊢
    by_cases h8 : i < 8
    · simpa [h8, hi] using hb
    · have := ih (i - 8) (by omega) (by omega)
      simp only [BitVec.ofNat_eq_ofNat, BitVec.getLsbD_zero] at this
      simpa [h8, hi, this] using hb

theorem rec_zero {a : BitVec 128} (h : sfmtRec a 0 0 0 = 0) : a = 0 := by
  apply shift_fixed_zero
  have e1 : map32 (· >>> 11) 0 = 0 := by decide +kernel
  have e2 : map32 (· <<< 18) 0 = 0 := by decide +kernel
  rw [sfmtRec, e1, e2] at h
  simpa using h

/-- A window that is zero comes from a sequence that starts with zero. -/
theorem zero_back {w : Nat → BitVec 128} (hw : IsSfmt w) (p : Nat) (h : ∀ i, i < 156 → w (p + i) = 0) : w 0 = 0 := by
  induction p with
  | zero => exact h 0 (by omega)
  | succ p ih =>
    apply ih
    have e := hw p
    have z : ∀ m, p < m → m ≤ p + 156 → w m = 0 := by
      intro m h1 h2
      rw [show m = p + 1 + (m - (p + 1)) by omega]
      exact h _ (by omega)
    rw [z (p + 156) (by omega) (by omega), z (p + 122) (by omega) (by omega), z (p + 154) (by omega) (by omega),
      z (p + 155) (by omega) (by omega)] at e
    have h0 := rec_zero e.symm
    intro i hi
    by_cases hi0 : i = 0
    · rw [hi0]
      exact h0
    · exact z _ (by omega) (by omega)

/-- After any seed the state of the generator is never all zero (where it would stay for ever). -/
theorem c70_never_zero {w : Nat → BitVec 128} (hw : IsSfmt w) (hc : Certified (w 0)) (p : Nat) :
    ∃ i, i < 156 ∧ w (p + i) ≠ 0 := by
  apply Classical.byContradiction
  intro hn
  have h0 : w 0 = 0 := zero_back hw p fun i hi => Classical.byContradiction fun hne => hn ⟨i, hi, hne⟩
  rw [h0] at hc
  revert hc
  unfold Certified
  decide +kernel

/-- The state zero is kept: without the certification the generator could be stuck. -/
theorem c70_zero_stuck : IsSfmt fun _ => 0 := by
  intro i
  have : (0 : BitVec 128) = sfmtRec 0 0 0 0 := by decide +kernel
  exact this

/-- A state that meets the hypotheses. -/
example : ∃ g, initGenRand (List.replicate 156 ⟨0, 0, 0, 0⟩) 1234 = .ok g ∧ g.state.length = 156 ∧ g.idx = 624 := by
  obtain ⟨g, w, e, _, ⟨_, p, hp, hk⟩, _⟩ := c70_init (List.replicate 156 ⟨0, 0, 0, 0⟩) (List.length_replicate ..) 1234
  refine ⟨g, e, hp.1, ?_⟩
  simp only [initGenRand, bind, Res.bind] at e
  split at e <;> try cases e
  split at e <;> try cases e
  split at e <;> try cases e
  rfl

end Nx
