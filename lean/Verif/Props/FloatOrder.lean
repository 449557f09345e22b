import Verif.Model.FloatOrder

/-!
# C145: comparisons of floating point numbers
-/

namespace Nx

/-! ## The order of values -/

theorem FpVal.lt_irrefl (a : FpVal) : a.lt a = false := by
  cases a <;> simp [FpVal.lt]

theorem FpVal.lt_trans {a b c : FpVal} (h : a.lt b = true) (h2 : b.lt c = true) : a.lt c = true := by
  cases a <;> cases b <;> cases c <;> simp [FpVal.lt] at h h2 ⊢
  omega

theorem FpVal.lt_asymm {a b : FpVal} (h : a.lt b = true) : b.lt a = false := by
  cases a <;> cases b <;> simp [FpVal.lt] at h ⊢
  omega

/-- Numbers that are not NaN are comparable. -/
theorem FpVal.lt_total {a b : FpVal} (ha : a ≠ .nan) (hb : b ≠ .nan) : a.lt b = true ∨ a = b ∨ b.lt a = true := by
  cases a <;> cases b <;> simp [FpVal.lt] at ha hb ⊢
  omega

theorem FpVal.lt_nan (a : FpVal) : a.lt .nan = false ∧ FpVal.lt .nan a = false := by
  cases a <;> simp [FpVal.lt]

theorem FpVal.not_nan {a b : FpVal} (h : a.lt b = true) : a ≠ .nan ∧ b ≠ .nan := by
  constructor
  · rintro rfl
    rw [(FpVal.lt_nan b).2] at h
    cases h
  · rintro rfl
    rw [(FpVal.lt_nan a).1] at h
    cases h

/-! ## Values and bits -/

theorem fpAbs_succ (p m : Nat) : fpAbs p m < fpAbs p (m + 1) := by
  have hp : 0 < 2 ^ p := Nat.two_pow_pos p
  have e0 := Nat.div_add_mod m (2 ^ p)
  have l0 := Nat.mod_lt m hp
  unfold fpAbs
  by_cases hc : m % 2 ^ p + 1 < 2 ^ p
  · have hd : (m + 1) / 2 ^ p = m / 2 ^ p := by
      rw [Nat.div_eq_iff hp]
      rw [Nat.mul_comm] at e0
      constructor
      · omega
      · have : (m / 2 ^ p + 1) * 2 ^ p = m / 2 ^ p * 2 ^ p + 2 ^ p := Nat.succ_mul _ _
        omega
    have hm : (m + 1) % 2 ^ p = m % 2 ^ p + 1 := by
      have := Nat.div_add_mod (m + 1) (2 ^ p)
      rw [hd] at this
      omega
    rw [hd, hm]
    split
    · omega
    · exact Nat.mul_lt_mul_of_pos_right (by omega) (Nat.two_pow_pos _)
  · have hm1 : m % 2 ^ p = 2 ^ p - 1 := by omega
    have e1 : m + 1 = 2 ^ p * (m / 2 ^ p + 1) := by
      have : 2 ^ p * (m / 2 ^ p + 1) = 2 ^ p * (m / 2 ^ p) + 2 ^ p := Nat.mul_succ _ _
      omega
    have hd : (m + 1) / 2 ^ p = m / 2 ^ p + 1 := by rw [e1, Nat.mul_div_cancel_left _ hp]
    have hm : (m + 1) % 2 ^ p = 0 := by rw [e1, Nat.mul_mod_right]
    rw [hd, hm, if_neg (show ¬(m / 2 ^ p + 1 = 0) from Nat.succ_ne_zero _), Nat.add_sub_cancel, Nat.add_zero]
    split
    · rename_i h
      rw [h, Nat.mul_zero] at e0
      rw [h, Nat.pow_zero, Nat.mul_one]
      omega
    · rename_i h
      obtain ⟨k, hk⟩ : ∃ k, m / 2 ^ p = k + 1 := ⟨m / 2 ^ p - 1, (Nat.succ_pred_eq_of_ne_zero h).symm⟩
      rw [hk, Nat.add_sub_cancel, Nat.pow_succ, Nat.mul_comm (2 ^ k) 2, ← Nat.mul_assoc]
      exact Nat.mul_lt_mul_of_pos_right (by omega) (Nat.two_pow_pos _)

theorem fpAbs_mono (p : Nat) {a b : Nat} (h : a < b) : fpAbs p a < fpAbs p b := by
  induction h with
  | refl => exact fpAbs_succ p a
  | step _ ih => exact Nat.lt_trans ih (fpAbs_succ p _)

theorem fpAbs_inj (p : Nat) {a b : Nat} (h : fpAbs p a = fpAbs p b) : a = b := by
  rcases Nat.lt_trichotomy a b with h1 | h1 | h1
  · have := fpAbs_mono p h1
    omega
  · exact h1
  · have := fpAbs_mono p h1
    omega

theorem fpAbs_zero (p : Nat) : fpAbs p 0 = 0 := by
  unfold fpAbs
  rw [Nat.zero_div, if_pos rfl]

/-- C145: two numbers that are not NaN are equal only if they have the same bits or are both zeros. -/
theorem c145_equal (f : FpFmt) {x y : BitVec (f.bits + 1)} (hx : fpVal f x ≠ .nan) (h : fpVal f x = fpVal f y) :
    x = y ∨ (x.toNat % 2 ^ f.bits = 0 ∧ y.toNat % 2 ^ f.bits = 0) := by
  have hxl := x.isLt
  have hyl := y.isLt
  have ex := Nat.div_add_mod x.toNat (2 ^ f.bits)
  have ey := Nat.div_add_mod y.toNat (2 ^ f.bits)
  have hp : 0 < 2 ^ f.bits := Nat.two_pow_pos _
  have lx := Nat.mod_lt x.toNat hp
  have ly := Nat.mod_lt y.toNat hp
  have p2 : 2 ^ (f.bits + 1) = 2 * 2 ^ f.bits := by rw [Nat.pow_succ, Nat.mul_comm]
  -- the sign and the other bits give the number
  have bits : ∀ (_ : (2 ^ f.bits ≤ x.toNat) ↔ 2 ^ f.bits ≤ y.toNat), x.toNat % 2 ^ f.bits = y.toNat % 2 ^ f.bits → x = y := by
    intro hs hm
    apply BitVec.eq_of_toNat_eq
    by_cases hn : 2 ^ f.bits ≤ x.toNat
    · have hn2 := hs.mp hn
      rw [Nat.mod_eq_sub_mod hn, Nat.mod_eq_sub_mod hn2, Nat.mod_eq_of_lt (by omega), Nat.mod_eq_of_lt (by omega)] at hm
      omega
    · have hn2 : ¬2 ^ f.bits ≤ y.toNat := fun h => hn (hs.mpr h)
      rw [Nat.mod_eq_of_lt (by omega), Nat.mod_eq_of_lt (by omega)] at hm
      exact hm
  unfold fpVal at h hx
  simp only at h hx
  by_cases h1 : f.inf < x.toNat % 2 ^ f.bits
  · rw [if_pos h1] at hx
    exact absurd rfl hx
  · rw [if_neg h1] at h
    by_cases g1 : f.inf < y.toNat % 2 ^ f.bits
    · rw [if_pos g1] at h
      split at h
      · split at h <;> cases h
      · cases h
    · rw [if_neg g1] at h
      by_cases h2 : x.toNat % 2 ^ f.bits = f.inf
      · rw [if_pos h2] at h
        by_cases g2 : y.toNat % 2 ^ f.bits = f.inf
        · rw [if_pos g2] at h
          left
          refine bits ?_ (h2.trans g2.symm)
          by_cases a : 2 ^ f.bits ≤ x.toNat <;> by_cases b : 2 ^ f.bits ≤ y.toNat <;> simp [a, b] at h ⊢
        · rw [if_neg g2] at h
          split at h <;> cases h
      · rw [if_neg h2] at h
        by_cases g2 : y.toNat % 2 ^ f.bits = f.inf
        · rw [if_pos g2] at h
          by_cases b : 2 ^ f.bits ≤ y.toNat <;> simp [b] at h
        · rw [if_neg g2, FpVal.fin.injEq] at h
          by_cases a : 2 ^ f.bits ≤ x.toNat <;> by_cases b : 2 ^ f.bits ≤ y.toNat <;> simp only [a, b, decide_true, decide_false, if_true, if_false, Bool.false_eq_true] at h
          · exact .inl (bits (by simp [a, b]) (fpAbs_inj f.frac (by omega)))
          · right
            have h0 : fpAbs f.frac (x.toNat % 2 ^ f.bits) = fpAbs f.frac 0 := by rw [fpAbs_zero]; omega
            have h0' : fpAbs f.frac (y.toNat % 2 ^ f.bits) = fpAbs f.frac 0 := by rw [fpAbs_zero]; omega
            exact ⟨fpAbs_inj _ h0, fpAbs_inj _ h0'⟩
          · right
            have h0 : fpAbs f.frac (x.toNat % 2 ^ f.bits) = fpAbs f.frac 0 := by rw [fpAbs_zero]; omega
            have h0' : fpAbs f.frac (y.toNat % 2 ^ f.bits) = fpAbs f.frac 0 := by rw [fpAbs_zero]; omega
            exact ⟨fpAbs_inj _ h0, fpAbs_inj _ h0'⟩
          · exact .inl (bits (by simp [a, b]) (fpAbs_inj f.frac (by omega)))

/-! ## The comparison of `qsort` -/

theorem compareDouble_le {x y : BitVec 64} : compareDouble x y ≤ 0 ↔ fpLt fpDouble y x = false := by
  unfold compareDouble
  by_cases h : fpLt fpDouble x y = true
  · rw [if_pos h]
    have : fpLt fpDouble y x = false := FpVal.lt_asymm h
    simp [this]
  · rw [if_neg h]
    cases h2 : fpLt fpDouble y x <;> simp

/-- C145: the comparison is a total order of the values of numbers that are not NaN. -/
theorem c145_compare {x y z : BitVec 64} (hx : fpVal fpDouble x ≠ .nan) (hy : fpVal fpDouble y ≠ .nan) (_hz : fpVal fpDouble z ≠ .nan) :
    compareDouble y x = -compareDouble x y ∧ (compareDouble x y = 0 ↔ fpVal fpDouble x = fpVal fpDouble y) ∧
    (compareDouble x y ≤ 0 → compareDouble y z ≤ 0 → compareDouble x z ≤ 0) := by
  refine ⟨?_, ?_, ?_⟩
  · unfold compareDouble
    cases h : fpLt fpDouble x y
    · cases h2 : fpLt fpDouble y x <;> simp
    · have : fpLt fpDouble y x = false := FpVal.lt_asymm h
      simp [this]
  · unfold compareDouble fpLt
    rcases FpVal.lt_total hx hy with h | h | h
    · rw [if_pos h]
      constructor
      · intro h
        cases h
      · intro e
        rw [e, FpVal.lt_irrefl] at h
        cases h
    · rw [h, FpVal.lt_irrefl]
      simp
    · rw [if_neg (by rw [FpVal.lt_asymm h]; simp), if_pos h]
      constructor
      · intro h
        cases h
      · intro e
        rw [e, FpVal.lt_irrefl] at h
        cases h
  · rw [compareDouble_le, compareDouble_le, compareDouble_le]
    unfold fpLt
    intro h1 h2
    cases h3 : (fpVal fpDouble z).lt (fpVal fpDouble x)
    · rfl
    · exfalso
      rcases FpVal.lt_total hx hy with h | h | h
      · rw [FpVal.lt_trans h3 h] at h2
        cases h2
      · rw [← h, h3] at h2
        cases h2
      · rw [h] at h1
        cases h1

/-- C145 is false with NaN: between any two different numbers it is equal to both. -/
theorem c145_nan_order_false {x y n : BitVec 64} (h : fpLt fpDouble x y = true) (hn : fpVal fpDouble n = .nan) :
    compareDouble x n = 0 ∧ compareDouble n y = 0 ∧ compareDouble x y = -1 := by
  unfold compareDouble fpLt
  unfold fpLt at h
  rw [hn, (FpVal.lt_nan _).1, (FpVal.lt_nan _).2, (FpVal.lt_nan _).1, (FpVal.lt_nan _).2, if_pos h]
  simp

/-- C145: without NaN all ways to sort an array give the same values in the same places. -/
theorem c145_sorted {l l' : List (BitVec 64)} (hp : l.Perm l') (hn : ∀ x ∈ l, fpVal fpDouble x ≠ .nan)
    (h : l.Pairwise fun x y => compareDouble x y ≤ 0) (h' : l'.Pairwise fun x y => compareDouble x y ≤ 0) :
    l.map (fpVal fpDouble) = l'.map (fpVal fpDouble) := by
  have conv : ∀ {l : List (BitVec 64)}, l.Pairwise (fun x y => compareDouble x y ≤ 0) →
      (l.map (fpVal fpDouble)).Pairwise fun a b => b.lt a = false := by
    intro l h
    exact List.pairwise_map.mpr (h.imp fun h => compareDouble_le.mp h)
  refine (hp.map (fpVal fpDouble)).eq_of_pairwise ?_ (conv h) (conv h')
  intro a b ha hb h1 h2
  obtain ⟨x, hx, rfl⟩ := List.mem_map.mp ha
  obtain ⟨y, hy, rfl⟩ := List.mem_map.mp hb
  rcases FpVal.lt_total (hn x hx) (hn y (hp.mem_iff.mpr hy)) with h | h | h
  · rw [h] at h2
    cases h2
  · exact h
  · rw [h] at h1
    cases h1

/-- C145 is false with NaN: an array can be sorted in two ways with different medians, a number and NaN. -/
theorem c145_nan_sorted_false : ∃ l l' : List (BitVec 64), l.Perm l' ∧ (l.Pairwise fun x y => compareDouble x y ≤ 0) ∧
    (l'.Pairwise fun x y => compareDouble x y ≤ 0) ∧ (l[1]?.map (fpVal fpDouble) = some (.fin 0)) ∧
    l'[1]?.map (fpVal fpDouble) = some .nan := by
  refine ⟨[0x7ff8000000000000#64, 0#64, 0x3ff0000000000000#64], [0#64, 0x7ff8000000000000#64, 0x3ff0000000000000#64],
    List.Perm.swap _ _ _, ?_, ?_, ?_, ?_⟩ <;> decide +kernel

/-! ## Two numbers -/

/-- C145: without NaN `nx_min_s` and `nx_min_d` give one of the two numbers, neither is less, and the order does not matter for the value. -/
theorem c145_min {f : FpFmt} {x y : BitVec (f.bits + 1)} (hx : fpVal f x ≠ .nan) (hy : fpVal f y ≠ .nan) :
    (fpMin f x y = x ∨ fpMin f x y = y) ∧ fpLt f x (fpMin f x y) = false ∧ fpLt f y (fpMin f x y) = false ∧
    fpVal f (fpMin f x y) = fpVal f (fpMin f y x) := by
  unfold fpMin fpLt
  rcases FpVal.lt_total hx hy with h | h | h
  · have h2 := FpVal.lt_asymm h
    rw [h, h2]
    exact ⟨.inl rfl, FpVal.lt_irrefl _, h2, rfl⟩
  · rw [h, FpVal.lt_irrefl]
    exact ⟨.inr rfl, FpVal.lt_irrefl _, FpVal.lt_irrefl _, h.symm⟩
  · have h2 := FpVal.lt_asymm h
    rw [h, h2]
    exact ⟨.inr rfl, h2, FpVal.lt_irrefl _, rfl⟩

/-- C145: the same for `nx_max_s` and `nx_max_d`. -/
theorem c145_max {f : FpFmt} {x y : BitVec (f.bits + 1)} (hx : fpVal f x ≠ .nan) (hy : fpVal f y ≠ .nan) :
    (fpMax f x y = x ∨ fpMax f x y = y) ∧ fpLt f (fpMax f x y) x = false ∧ fpLt f (fpMax f x y) y = false ∧
    fpVal f (fpMax f x y) = fpVal f (fpMax f y x) := by
  unfold fpMax fpLt
  rcases FpVal.lt_total hx hy with h | h | h
  · have h2 := FpVal.lt_asymm h
    rw [h, h2]
    exact ⟨.inr rfl, h2, FpVal.lt_irrefl _, rfl⟩
  · rw [h, FpVal.lt_irrefl]
    exact ⟨.inr rfl, FpVal.lt_irrefl _, FpVal.lt_irrefl _, h.symm⟩
  · have h2 := FpVal.lt_asymm h
    rw [h, h2]
    exact ⟨.inl rfl, FpVal.lt_irrefl _, h2, rfl⟩

/-- C145 is false with NaN: the second number is given, whichever is NaN. -/
theorem c145_nan_min_false {f : FpFmt} {x y : BitVec (f.bits + 1)} (h : fpVal f x = .nan ∨ fpVal f y = .nan) :
    fpMin f x y = y ∧ fpMax f x y = y ∧ fpMin f y x = x ∧ fpMax f y x = x := by
  unfold fpMin fpMax fpLt
  have h1 : (fpVal f x).lt (fpVal f y) = false := by
    rcases h with h | h
    · rw [h]; exact (FpVal.lt_nan _).2
    · rw [h]; exact (FpVal.lt_nan _).1
  have h2 : (fpVal f y).lt (fpVal f x) = false := by
    rcases h with h | h
    · rw [h]; exact (FpVal.lt_nan _).1
    · rw [h]; exact (FpVal.lt_nan _).2
  rw [h1, h2]
  exact ⟨rfl, rfl, rfl, rfl⟩

/-! ## Minimum and maximum of an array -/

theorem FpVal.lt_chain {a b c : FpVal} (hb : b ≠ .nan) (h1 : a.lt b = false) (h2 : b.lt c = false) : a.lt c = false := by
  cases a <;> cases b <;> cases c <;> simp [FpVal.lt] at hb h1 h2 ⊢
  omega

/-- The loop, from two numbers that are not NaN. -/
theorem dblRangeLoop_spec : ∀ (xs : List (BitVec 64)) (mn mx : BitVec 64), fpVal fpDouble mn ≠ .nan → fpVal fpDouble mx ≠ .nan →
    ((dblRangeLoop xs mn mx).1 = mn ∨ (dblRangeLoop xs mn mx).1 ∈ xs) ∧ fpLt fpDouble mn (dblRangeLoop xs mn mx).1 = false ∧
    (∀ y ∈ xs, fpLt fpDouble y (dblRangeLoop xs mn mx).1 = false) ∧
    ((dblRangeLoop xs mn mx).2 = mx ∨ (dblRangeLoop xs mn mx).2 ∈ xs) ∧ fpLt fpDouble (dblRangeLoop xs mn mx).2 mx = false ∧
    ∀ y ∈ xs, fpLt fpDouble (dblRangeLoop xs mn mx).2 y = false := by
  intro xs
  induction xs with
  | nil => exact fun mn mx _ _ => ⟨.inl rfl, FpVal.lt_irrefl _, by simp, .inl rfl, FpVal.lt_irrefl _, by simp⟩
  | cons x xs ih =>
    intro mn mx hn hx
    rw [dblRangeLoop]
    obtain ⟨mn', em⟩ : ∃ m, m = if fpLt fpDouble x mn then x else mn := ⟨_, rfl⟩
    obtain ⟨mx', ex⟩ : ∃ m, m = if fpLt fpDouble mx x then x else mx := ⟨_, rfl⟩
    rw [← em, ← ex]
    have m1 : (mn' = mn ∨ mn' = x) ∧ fpVal fpDouble mn' ≠ .nan ∧ fpLt fpDouble mn mn' = false ∧ fpLt fpDouble x mn' = false := by
      by_cases c : fpLt fpDouble x mn = true
      · rw [if_pos c] at em
        subst em
        exact ⟨.inr rfl, (FpVal.not_nan c).1, FpVal.lt_asymm c, FpVal.lt_irrefl _⟩
      · rw [if_neg c] at em
        subst em
        exact ⟨.inl rfl, hn, FpVal.lt_irrefl _, Bool.eq_false_iff.mpr c⟩
    have m2 : (mx' = mx ∨ mx' = x) ∧ fpVal fpDouble mx' ≠ .nan ∧ fpLt fpDouble mx' mx = false ∧ fpLt fpDouble mx' x = false := by
      by_cases c : fpLt fpDouble mx x = true
      · rw [if_pos c] at ex
        subst ex
        exact ⟨.inr rfl, (FpVal.not_nan c).2, FpVal.lt_asymm c, FpVal.lt_irrefl _⟩
      · rw [if_neg c] at ex
        subst ex
        exact ⟨.inl rfl, hx, FpVal.lt_irrefl _, Bool.eq_false_iff.mpr c⟩
    obtain ⟨p1, p2, p3, p4⟩ := m1
    obtain ⟨q1, q2, q3, q4⟩ := m2
    obtain ⟨a1, a2, a3, b1, b2, b3⟩ := ih mn' mx' p2 q2
    refine ⟨?_, FpVal.lt_chain p2 p3 a2, ?_, ?_, FpVal.lt_chain q2 b2 q3, ?_⟩
    · rcases a1 with h | h
      · rcases p1 with h2 | h2
        · exact .inl (h.trans h2)
        · exact .inr (by rw [h, h2]; exact List.mem_cons_self)
      · exact .inr (List.mem_cons_of_mem _ h)
    · intro y hy
      rcases List.mem_cons.mp hy with rfl | hy
      · exact FpVal.lt_chain p2 p4 a2
      · exact a3 y hy
    · rcases b1 with h | h
      · rcases q1 with h2 | h2
        · exact .inl (h.trans h2)
        · exact .inr (by rw [h, h2]; exact List.mem_cons_self)
      · exact .inr (List.mem_cons_of_mem _ h)
    · intro y hy
      rcases List.mem_cons.mp hy with rfl | hy
      · exact FpVal.lt_chain q2 b2 q4
      · exact b3 y hy

theorem dblMax_val : fpVal fpDouble dblMax = .fin (fpAbs 52 (fpDouble.inf - 1)) := by decide +kernel

theorem dblMin_val : fpVal fpDouble dblMin = .fin (-(fpAbs 52 (fpDouble.inf - 1) : Int)) := by decide +kernel

/-- Finite numbers are not beyond the largest one. -/
theorem fpVal_range {f : FpFmt} {x : BitVec (f.bits + 1)} {z : Int} (h : fpVal f x = .fin z) :
    z ≤ fpAbs f.frac (f.inf - 1) ∧ -(fpAbs f.frac (f.inf - 1) : Int) ≤ z := by
  unfold fpVal at h
  simp only at h
  by_cases h1 : f.inf < x.toNat % 2 ^ f.bits
  · rw [if_pos h1] at h
    cases h
  · rw [if_neg h1] at h
    by_cases h2 : x.toNat % 2 ^ f.bits = f.inf
    · rw [if_pos h2] at h
      by_cases b : 2 ^ f.bits ≤ x.toNat <;> simp [b] at h
    · rw [if_neg h2, FpVal.fin.injEq] at h
      have h3 : fpAbs f.frac (x.toNat % 2 ^ f.bits) ≤ fpAbs f.frac (f.inf - 1) := by
        rcases Nat.lt_or_ge (x.toNat % 2 ^ f.bits) (f.inf - 1) with h4 | h4
        · exact Nat.le_of_lt (fpAbs_mono f.frac h4)
        · have : x.toNat % 2 ^ f.bits = f.inf - 1 := by omega
          rw [this]
          exact Nat.le_refl _
      by_cases b : 2 ^ f.bits ≤ x.toNat
      · simp only [b, decide_true, if_true] at h
        omega
      · simp only [b, decide_false, Bool.false_eq_true, if_false] at h
        omega

/-- The loop never takes NaN. -/
theorem dblRangeLoop_nan : ∀ (xs : List (BitVec 64)) (mn mx : BitVec 64), fpVal fpDouble mn ≠ .nan → fpVal fpDouble mx ≠ .nan →
    fpVal fpDouble (dblRangeLoop xs mn mx).1 ≠ .nan ∧ fpVal fpDouble (dblRangeLoop xs mn mx).2 ≠ .nan := by
  intro xs
  induction xs with
  | nil => exact fun mn mx h h2 => ⟨h, h2⟩
  | cons x xs ih =>
    intro mn mx h h2
    rw [dblRangeLoop]
    apply ih
    · by_cases c : fpLt fpDouble x mn = true
      · rw [if_pos c]
        exact (FpVal.not_nan c).1
      · rw [if_neg c]
        exact h
    · by_cases c : fpLt fpDouble mx x = true
      · rw [if_pos c]
        exact (FpVal.not_nan c).2
      · rw [if_neg c]
        exact h2

/-- C145: the minimum of an array, NaN in it or not, is an element with no lesser one, if an element is neither NaN nor positive
infinity; otherwise it is `DBL_MAX` if there are two or more numbers. -/
theorem c145_array_min (xs : List (BitVec 64)) :
    ((∃ x ∈ xs, fpVal fpDouble x ≠ .nan ∧ fpVal fpDouble x ≠ .pinf) →
      (dblRange xs).1 ∈ xs ∧ fpVal fpDouble (dblRange xs).1 ≠ .nan ∧ ∀ y ∈ xs, fpLt fpDouble y (dblRange xs).1 = false) ∧
    (2 ≤ xs.length → (∀ x ∈ xs, fpVal fpDouble x = .nan ∨ fpVal fpDouble x = .pinf) → (dblRange xs).1 = dblMax ∧ dblMax ∉ xs) := by
  rcases Nat.lt_or_ge xs.length 2 with hs | hl
  · match xs, hs with
    | [], _ => exact ⟨fun ⟨_, h, _⟩ => absurd h (List.not_mem_nil), fun h => absurd h (by decide)⟩
    | [x], _ =>
      refine ⟨fun ⟨z, hz, h, _⟩ => ?_, fun h => absurd h (by simp)⟩
      rw [List.mem_singleton] at hz
      subst hz
      exact ⟨List.mem_singleton.mpr rfl, h, fun y hy => by rw [List.mem_singleton] at hy; rw [hy]; exact FpVal.lt_irrefl _⟩
  suffices h : _ ∧ (_ → _) from ⟨h.1, fun _ => h.2⟩
  have e : dblRange xs = dblRangeLoop xs dblMax dblMin := by
    match xs, hl with
    | _ :: _ :: _, _ => rfl
  have hM : fpVal fpDouble dblMax ≠ .nan := by rw [dblMax_val]; simp
  have hm : fpVal fpDouble dblMin ≠ .nan := by rw [dblMin_val]; simp
  obtain ⟨a1, -, a3, -⟩ := dblRangeLoop_spec xs dblMax dblMin hM hm
  rw [e]
  have hnot : (∀ x ∈ xs, fpVal fpDouble x = .nan ∨ fpVal fpDouble x = .pinf) → dblMax ∉ xs := by
    intro h hmem
    rcases h _ hmem with h | h <;> rw [dblMax_val] at h <;> cases h
  refine ⟨?_, fun h => ⟨?_, hnot h⟩⟩
  · rintro ⟨x, hx, h1, h2⟩
    have hmem : (dblRangeLoop xs dblMax dblMin).1 ∈ xs := by
      rcases a1 with h | h
      · have h3 := a3 x hx
        rw [h] at h3 ⊢
        have : fpVal fpDouble x = fpVal fpDouble dblMax := by
          rw [dblMax_val]
          unfold fpLt at h3
          rw [dblMax_val] at h3
          match hv : fpVal fpDouble x with
          | .nan => exact absurd hv h1
          | .pinf => exact absurd hv h2
          | .ninf => rw [hv] at h3; cases h3
          | .fin z =>
            have : z ≤ fpAbs 52 (fpDouble.inf - 1) := (fpVal_range hv).1
            rw [hv] at h3
            simp only [FpVal.lt, decide_eq_false_iff_not] at h3
            rw [show z = fpAbs 52 (fpDouble.inf - 1) by omega]
        rcases c145_equal fpDouble h1 this with h4 | ⟨-, h4⟩
        · exact h4 ▸ hx
        · exact absurd h4 (by decide)
      · exact h
    exact ⟨hmem, (dblRangeLoop_nan xs dblMax dblMin hM hm).1, a3⟩
  · rcases a1 with h1 | h1
    · exact h1
    · exfalso
      have key : ∀ (ys : List (BitVec 64)) (mx : BitVec 64), (∀ x ∈ ys, fpVal fpDouble x = .nan ∨ fpVal fpDouble x = .pinf) →
          (dblRangeLoop ys dblMax mx).1 = dblMax := by
        intro ys
        induction ys with
        | nil => exact fun mx _ => rfl
        | cons y ys ih =>
          intro mx hy
          rw [dblRangeLoop]
          have c : fpLt fpDouble y dblMax = false := by
            unfold fpLt
            rw [dblMax_val]
            rcases hy y List.mem_cons_self with h | h <;> rw [h] <;> rfl
          rw [c]
          exact ih _ fun x hx => hy x (List.mem_cons_of_mem _ hx)
      rw [key xs dblMin h] at h1
      exact hnot h h1

/-- C145: the maximum of an array, NaN in it or not, is an element with no greater one, if an element is neither NaN nor negative
infinity; otherwise it is `-DBL_MAX` if there are two or more numbers. -/
theorem c145_array_max (xs : List (BitVec 64)) :
    ((∃ x ∈ xs, fpVal fpDouble x ≠ .nan ∧ fpVal fpDouble x ≠ .ninf) →
      (dblRange xs).2 ∈ xs ∧ fpVal fpDouble (dblRange xs).2 ≠ .nan ∧ ∀ y ∈ xs, fpLt fpDouble (dblRange xs).2 y = false) ∧
    (2 ≤ xs.length → (∀ x ∈ xs, fpVal fpDouble x = .nan ∨ fpVal fpDouble x = .ninf) → (dblRange xs).2 = dblMin ∧ dblMin ∉ xs) := by
  rcases Nat.lt_or_ge xs.length 2 with hs | hl
  · match xs, hs with
    | [], _ => exact ⟨fun ⟨_, h, _⟩ => absurd h (List.not_mem_nil), fun h => absurd h (by decide)⟩
    | [x], _ =>
      refine ⟨fun ⟨z, hz, h, _⟩ => ?_, fun h => absurd h (by simp)⟩
      rw [List.mem_singleton] at hz
      subst hz
      exact ⟨List.mem_singleton.mpr rfl, h, fun y hy => by rw [List.mem_singleton] at hy; rw [hy]; exact FpVal.lt_irrefl _⟩
  suffices h : _ ∧ (_ → _) from ⟨h.1, fun _ => h.2⟩
  have e : dblRange xs = dblRangeLoop xs dblMax dblMin := by
    match xs, hl with
    | _ :: _ :: _, _ => rfl
  have hM : fpVal fpDouble dblMax ≠ .nan := by rw [dblMax_val]; simp
  have hm : fpVal fpDouble dblMin ≠ .nan := by rw [dblMin_val]; simp
  obtain ⟨-, -, -, a1, -, a3⟩ := dblRangeLoop_spec xs dblMax dblMin hM hm
  rw [e]
  have hnot : (∀ x ∈ xs, fpVal fpDouble x = .nan ∨ fpVal fpDouble x = .ninf) → dblMin ∉ xs := by
    intro h hmem
    rcases h _ hmem with h | h <;> rw [dblMin_val] at h <;> cases h
  refine ⟨?_, fun h => ⟨?_, hnot h⟩⟩
  · rintro ⟨x, hx, h1, h2⟩
    have hmem : (dblRangeLoop xs dblMax dblMin).2 ∈ xs := by
      rcases a1 with h | h
      · have h3 := a3 x hx
        rw [h] at h3 ⊢
        have : fpVal fpDouble x = fpVal fpDouble dblMin := by
          rw [dblMin_val]
          unfold fpLt at h3
          rw [dblMin_val] at h3
          match hv : fpVal fpDouble x with
          | .nan => exact absurd hv h1
          | .ninf => exact absurd hv h2
          | .pinf => rw [hv] at h3; cases h3
          | .fin z =>
            have : -(fpAbs 52 (fpDouble.inf - 1) : Int) ≤ z := (fpVal_range hv).2
            rw [hv] at h3
            simp only [FpVal.lt, decide_eq_false_iff_not] at h3
            rw [show z = -(fpAbs 52 (fpDouble.inf - 1) : Int) by omega]
        rcases c145_equal fpDouble h1 this with h4 | ⟨-, h4⟩
        · exact h4 ▸ hx
        · exact absurd h4 (by decide)
      · exact h
    exact ⟨hmem, (dblRangeLoop_nan xs dblMax dblMin hM hm).2, a3⟩
  · rcases a1 with h1 | h1
    · exact h1
    · exfalso
      have key : ∀ (ys : List (BitVec 64)) (mn : BitVec 64), (∀ x ∈ ys, fpVal fpDouble x = .nan ∨ fpVal fpDouble x = .ninf) →
          (dblRangeLoop ys mn dblMin).2 = dblMin := by
        intro ys
        induction ys with
        | nil => exact fun mn _ => rfl
        | cons y ys ih =>
          intro mn hy
          rw [dblRangeLoop]
          have c : fpLt fpDouble dblMin y = false := by
            unfold fpLt
            rw [dblMin_val]
            rcases hy y List.mem_cons_self with h | h <;> rw [h] <;> rfl
          rw [c]
          exact ih _ fun x hx => hy x (List.mem_cons_of_mem _ hx)
      rw [key xs dblMax h] at h1
      exact hnot h h1

/-- C145 is false for infinities: the minimum of an array that has only positive infinity is finite. -/
theorem c145_inf_false {n : Nat} (hn : 2 ≤ n) : ∃ x : BitVec 64, fpVal fpDouble x = .pinf ∧
    (dblRange (List.replicate n x)).1 = dblMax ∧ fpLt fpDouble dblMax x = true ∧
    ∀ y ∈ List.replicate n x, fpLt fpDouble (dblRange (List.replicate n x)).1 y = true := by
  refine ⟨0x7ff0000000000000#64, by decide +kernel, ?_⟩
  have h := ((c145_array_min (List.replicate n 0x7ff0000000000000#64)).2 (by rw [List.length_replicate]; exact hn) (by
    intro x hx
    rw [List.eq_of_mem_replicate hx]
    exact .inr (by decide +kernel))).1
  have lt : fpLt fpDouble dblMax 0x7ff0000000000000#64 = true := by decide +kernel
  refine ⟨h, lt, fun y hy => ?_⟩
  rw [h, List.eq_of_mem_replicate hy]
  exact lt

/-! ## Examples -/

/-- One, the least positive number and the least normal one. -/
example : fpVal fpDouble 0x3ff0000000000000#64 = .fin (2 ^ 1074) ∧ fpVal fpDouble 1#64 = .fin 1 ∧
    fpVal fpDouble 0x0010000000000000#64 = .fin (2 ^ 52) ∧ fpVal fpDouble 0x8000000000000000#64 = .fin 0 := by decide +kernel

example : fpVal fpFloat 0x3f800000#32 = .fin (2 ^ 149) ∧ fpVal fpFloat 0xff800000#32 = .ninf ∧ fpVal fpFloat 0x7fc00000#32 = .nan := by
  decide +kernel

/-- Minus one, NaN and one. -/
example : dblRange [0xbff0000000000000#64, 0x7ff8000000000000#64, 0x3ff0000000000000#64] =
    (0xbff0000000000000#64, 0x3ff0000000000000#64) := by decide +kernel

example : compareDouble 0xbff0000000000000#64 0x3ff0000000000000#64 = -1 ∧ compareDouble 0x8000000000000000#64 0#64 = 0 := by
  decide +kernel

end Nx
