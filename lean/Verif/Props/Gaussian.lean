import Verif.Model.Gaussian
import Verif.Spec.Gaussian
import Verif.Lemmas.Gaussian
import Mathlib.Tactic.Linarith

/-!
# C74: the sampling of normal variates
-/

namespace Nx

open MeasureTheory ProbabilityTheory

/-- The points of the open unit disc among those that the random numbers give, in order. -/
def discPoints (vs : List (BitVec 32)) : List (ℚ × ℚ) :=
  ((inPairs vs).map fun p => (2 * ((round24 p.1.toNat : ℚ) / 2 ^ 32) - 1, 2 * ((round24 p.2.toNat : ℚ) / 2 ^ 32) - 1)).filter
    fun v => normSq2 v < 1

/-- The two numbers for a point. -/
noncomputable def polarPair (mean sigma : ℝ) (v : ℚ × ℚ) : List GVal :=
  [polarVal mean sigma (normSq2 v) v.1, polarVal mean sigma (normSq2 v) v.2]

theorem discPoints_cons (a b : BitVec 32) (vs : List (BitVec 32)) :
    discPoints (a :: b :: vs) =
      if 1 ≤ polarNorm (polarCoordOf a, polarCoordOf b) then discPoints vs
      else (polarCoordOf a, polarCoordOf b) :: discPoints vs := by
  have e : ∀ x : BitVec 32, 2 * ((round24 x.toNat : ℚ) / 2 ^ 32) - 1 = polarCoordOf x := by
    intro x
    simp only [polarCoordOf, sampleS]
    norm_num
  have e2 : polarNorm (polarCoordOf a, polarCoordOf b) = normSq2 (polarCoordOf a, polarCoordOf b) := rfl
  unfold discPoints
  simp only [inPairs, List.map_cons, List.filter_cons, e, e2]
  by_cases h : 1 ≤ normSq2 (polarCoordOf a, polarCoordOf b)
  · rw [if_pos h, if_neg (by simpa using h)]
  · rw [if_neg h, if_pos (by simpa using h)]

theorem inPairs_append {α : Type} (l1 l2 : List α) (m : Nat) (h : l1.length = 2 * m) :
    inPairs (l1 ++ l2) = inPairs l1 ++ inPairs l2 := by
  induction m generalizing l1 with
  | zero =>
    have : l1 = [] := by simpa using h
    subst this
    rfl
  | succ m ih =>
    match l1, h with
    | a :: b :: l, h =>
      simp only [List.cons_append, inPairs, List.cons.injEq, true_and]
      exact ih l (by simp at h; omega)
    | [a], h => simp at h; omega
    | [], h => simp at h

theorem discPoints_append (l1 l2 : List (BitVec 32)) (m : Nat) (h : l1.length = 2 * m) :
    discPoints (l1 ++ l2) = discPoints l1 ++ discPoints l2 := by
  unfold discPoints
  rw [inPairs_append l1 l2 m h, List.map_append, List.filter_append]

theorem discPoints_take (vs : List (BitVec 32)) (m1 m2 : Nat) (h : 2 * m1 ≤ vs.length) :
    discPoints (vs.take (2 * (m1 + m2))) = discPoints (vs.take (2 * m1)) ++ discPoints ((vs.drop (2 * m1)).take (2 * m2)) := by
  rw [← discPoints_append _ _ m1 (by rw [List.length_take]; omega)]
  congr 1
  rw [Nat.mul_add, List.take_add]

theorem polarDraw_some (vs : List (BitVec 32)) (v : ℚ × ℚ) (rest : List (BitVec 32))
    (h : polarDraw vs = some (v, rest)) :
    ∃ m, 2 * m ≤ vs.length ∧ rest = vs.drop (2 * m) ∧ discPoints (vs.take (2 * m)) = [v] ∧
      ∀ m' < m, discPoints (vs.take (2 * m')) = [] := by
  fun_induction polarDraw vs with
  | case1 a b vs hs ih =>
    obtain ⟨m, hm, hr, hd, hmin⟩ := ih h
    refine ⟨m + 1, by simp; omega, ?_, ?_, ?_⟩
    · rw [hr, Nat.mul_add]
      rfl
    · rw [Nat.mul_add]
      show discPoints (a :: b :: vs.take (2 * m)) = _
      rw [discPoints_cons, if_pos hs, hd]
    · intro m' hm'
      cases m' with
      | zero => rfl
      | succ m' =>
        rw [Nat.mul_add]
        show discPoints (a :: b :: vs.take (2 * m')) = _
        rw [discPoints_cons, if_pos hs]
        exact hmin m' (by omega)
  | case2 a b vs hs =>
    simp only [Option.some.injEq, Prod.mk.injEq] at h
    obtain ⟨rfl, rfl⟩ := h
    refine ⟨1, by simp, rfl, ?_, ?_⟩
    · show discPoints (a :: b :: vs.take 0) = _
      rw [discPoints_cons, if_neg hs]
      rfl
    · intro m' hm'
      have : m' = 0 := by omega
      subst this
      rfl
  | case3 => cases h

theorem polarDraw_none (vs : List (BitVec 32)) (h : polarDraw vs = none) : discPoints vs = [] := by
  fun_induction polarDraw vs with
  | case1 a b vs hs ih => rw [discPoints_cons, if_pos hs, ih h]
  | case2 a b vs hs => cases h
  | case3 vs hne =>
    match vs with
    | [] => rfl
    | [a] => rfl
    | a :: b :: l => exact absurd rfl (hne a b l)

theorem discPoints_split (vs : List (BitVec 32)) (m : Nat) (h : 2 * m ≤ vs.length) :
    discPoints vs = discPoints (vs.take (2 * m)) ++ discPoints (vs.drop (2 * m)) := by
  conv_lhs => rw [← List.take_append_drop (2 * m) vs]
  exact discPoints_append _ _ m (by rw [List.length_take]; omega)

/-- What a call that has `k` samples to write does. -/
def WroteSamples (mean sigma : ℝ) (k : Nat) (pre suf : List GVal) (vs : List (BitVec 32)) :
    GRun (List GVal × List (BitVec 32)) → Prop
  | .ub => False
  | .starved => (discPoints vs).length < (k + 1) / 2
  | .done (mem, rest) => ∃ m, 2 * m ≤ vs.length ∧ rest = vs.drop (2 * m) ∧
      (discPoints (vs.take (2 * m))).length = (k + 1) / 2 ∧
      (∀ m' < m, (discPoints (vs.take (2 * m'))).length < (k + 1) / 2) ∧
      mem = pre ++ ((discPoints (vs.take (2 * m))).flatMap (polarPair mean sigma)).take k ++ suf.drop k

theorem storeSample_at (pre suf : List GVal) (y x : GVal) :
    storeSample (pre ++ y :: suf) pre.length x = some (pre ++ x :: suf) := by
  unfold storeSample
  rw [if_pos (by simp)]
  simp

theorem gaussLoop_wrote (mean sigma : ℝ) (k : Nat) :
    ∀ (pre suf : List GVal) (vs : List (BitVec 32)), k ≤ suf.length →
      WroteSamples mean sigma k pre suf vs
        (gaussLoop mean sigma ((pre.length : Int) + k) pre.length pre.length (pre ++ suf) vs) := by
  induction k using Nat.strongRecOn with
  | _ k ih =>
    intro pre suf vs hk
    rw [gaussLoop]
    match k, suf, hk, ih with
    | 0, suf, hk, ih =>
      rw [if_neg (by omega), gaussLast, if_neg (by omega)]
      exact ⟨0, by omega, rfl, rfl, by omega, by simp⟩
    | 1, y :: suf, hk, ih =>
      rw [if_neg (by omega), gaussLast, if_pos (by omega)]
      cases hd : polarDraw vs with
      | none =>
        show (discPoints vs).length < _
        rw [polarDraw_none vs hd]
        decide
      | some q =>
        obtain ⟨v, rest⟩ := q
        simp only [storeSample_at]
        obtain ⟨m, h1, h2, h3, h4⟩ := polarDraw_some vs v rest hd
        refine ⟨m, h1, h2, by rw [h3]; rfl, ?_, ?_⟩
        · intro m' hm'
          rw [h4 m' hm']
          decide
        · rw [h3]
          simp [polarPair, polarNorm, normSq2]
    | k + 2, y :: z :: suf, hk, ih =>
      rw [if_pos (by omega)]
      cases hd : polarDraw vs with
      | none =>
        show (discPoints vs).length < _
        rw [polarDraw_none vs hd]
        simp only [List.length_nil]
        omega
      | some q =>
        obtain ⟨v, rest⟩ := q
        simp only [storeSample_at]
        have e : ∀ x : GVal, pre ++ x :: z :: suf = (pre ++ [x]) ++ z :: suf := by simp
        have el : ∀ x : GVal, pre.length + 1 = (pre ++ [x]).length := by simp
        rw [e, el, storeSample_at]
        simp only
        obtain ⟨m, h1, h2, h3, h4⟩ := polarDraw_some vs v rest hd
        generalize hx : polarVal mean sigma (polarNorm v) v.1 = x
        generalize hy : polarVal mean sigma (polarNorm v) v.2 = y'
        have hp : polarPair mean sigma v = [x, y'] := by rw [← hx, ← hy]; rfl
        have i := ih k (by omega) (pre ++ [x, y']) suf rest (by simp at hk; omega)
        have e1 : ((pre ++ [x, y']).length : Int) + k = (pre.length : Int) + (k + 2 : Nat) := by simp; omega
        have e2 : ((pre ++ [x, y']).length : Int) = (pre.length : Int) + 2 := by simp
        have e3 : (pre ++ [x, y']).length = pre.length + 2 := by simp
        rw [e1, e2, e3] at i
        have e4 : pre ++ [x] ++ y' :: suf = pre ++ [x, y'] ++ suf := by simp
        rw [e4]
        generalize gaussLoop mean sigma _ _ _ _ rest = r at i
        cases r with
        | ub => exact i
        | starved =>
          have i' : (discPoints rest).length < (k + 1) / 2 := i
          show (discPoints vs).length < _
          rw [discPoints_split vs m h1, h3, ← h2]
          simp only [List.length_append, List.length_singleton]
          omega
        | done p =>
          obtain ⟨mem, rest'⟩ := p
          obtain ⟨m2, j1, j2, j3, j4, j5⟩ := i
          have hl : rest.length = vs.length - 2 * m := by rw [h2, List.length_drop]
          refine ⟨m + m2, by omega, ?_, ?_, ?_, ?_⟩
          · rw [j2, h2, List.drop_drop, Nat.mul_add]
          · rw [discPoints_take vs m m2 h1, h3, ← h2]
            simp only [List.length_append, List.length_singleton, j3]
            omega
          · intro m' hm'
            by_cases hc : m' < m
            · rw [h4 m' hc]
              simp only [List.length_nil]
              omega
            · have : m' = m + (m' - m) := by omega
              rw [this, discPoints_take vs m _ h1, h3, ← h2]
              have := j4 (m' - m) (by omega)
              simp only [List.length_append, List.length_singleton]
              omega
          · rw [j5, discPoints_take vs m m2 h1, h3, ← h2]
            simp [hp]

/-- The call writes the samples for the first points of the disc that the numbers give, in order, to the first `n` places and
nowhere else; it asks for no more numbers than it needs, and it ends as soon as there are enough points. -/
theorem c74_samples (vs : List (BitVec 32)) (n : Nat) (mem : List GVal) (mean sigma : ℝ) (hn : n ≤ mem.length) :
    (gaussSample vs n mem mean sigma = .starved ∧ (discPoints vs).length < (n + 1) / 2) ∨
    ∃ m, 2 * m ≤ vs.length ∧ (discPoints (vs.take (2 * m))).length = (n + 1) / 2 ∧
      (∀ m' < m, (discPoints (vs.take (2 * m'))).length < (n + 1) / 2) ∧
      gaussSample vs n mem mean sigma =
        .done (((discPoints (vs.take (2 * m))).flatMap (polarPair mean sigma)).take n ++ mem.drop n, vs.drop (2 * m)) := by
  have h := gaussLoop_wrote mean sigma n [] mem vs hn
  unfold gaussSample
  rw [if_neg (by omega)]
  simp only [List.length_nil, Int.natCast_zero, Int.zero_add, List.nil_append] at h
  cases hr : gaussLoop mean sigma n 0 0 mem vs with
  | ub => rw [hr] at h; exact absurd h id
  | starved => rw [hr] at h; exact Or.inl ⟨rfl, h⟩
  | done p =>
    rw [hr] at h
    obtain ⟨mem', rest⟩ := p
    obtain ⟨m, h1, h2, h3, h4, h5⟩ := h
    refine Or.inr ⟨m, h1, h3, h4, ?_⟩
    rw [h5, h2]
    simp

/-- If there are no samples to write nothing happens. -/
theorem c74_nothing (vs : List (BitVec 32)) (n : Int) (mem : List GVal) (mean sigma : ℝ) (hn : n ≤ 0) (h : -2147483648 < n) :
    gaussSample vs n mem mean sigma = .done (mem, vs) := by
  unfold gaussSample
  rw [if_neg (by omega), gaussLoop, if_neg (by omega), gaussLast, if_neg (by omega)]

/-- For the smallest `int` the bound of the loop overflows. -/
theorem c74_overflow (vs : List (BitVec 32)) (mem : List GVal) (mean sigma : ℝ) :
    gaussSample vs (-2147483648) mem mean sigma = .ub := by
  unfold gaussSample
  rw [if_pos (by omega)]

/-- A sample is not a number for the centre of the disc, and only there. -/
theorem c74_nan_iff (mean sigma : ℝ) (v : ℚ × ℚ) (x : GVal) (hx : x ∈ polarPair mean sigma v) :
    x = .nan ↔ v = (0, 0) := by
  have hz : normSq2 v = 0 ↔ v = (0, 0) := by
    obtain ⟨a, b⟩ := v
    unfold normSq2
    simp only [Prod.mk.injEq]
    constructor
    · intro h
      constructor <;> nlinarith [mul_self_nonneg a, mul_self_nonneg b]
    · rintro ⟨rfl, rfl⟩
      simp
  rw [← hz]
  unfold polarPair at hx
  simp only [List.mem_cons, List.not_mem_nil, or_false] at hx
  rcases hx with rfl | rfl <;> (unfold polarVal; by_cases h : normSq2 v = 0 <;> simp [h])

/-- The centre of the disc does occur: two of the numbers are enough. -/
theorem c74_nan (mean sigma : ℝ) (y : GVal) :
    gaussSample [2147483648#32, 2147483648#32] 1 [y] mean sigma = .done ([.nan], []) := by
  have hd : polarDraw [2147483648#32, 2147483648#32] = some ((0, 0), []) := by decide +kernel
  unfold gaussSample
  rw [if_neg (by omega), gaussLoop, if_neg (by omega), gaussLast, if_pos (by omega), hd]
  simp [storeSample, polarNorm, polarVal]

theorem discPoints_mem (vs : List (BitVec 32)) (v : ℚ × ℚ) (h : v ∈ discPoints vs) :
    normSq2 v < 1 ∧ ∃ a b : Int, v = ((a : ℚ) / 2 ^ 31, (b : ℚ) / 2 ^ 31) := by
  unfold discPoints at h
  rw [List.mem_filter, List.mem_map] at h
  obtain ⟨⟨p, _, rfl⟩, h2⟩ := h
  refine ⟨by simpa using h2, (round24 p.1.toNat : Int) - 2 ^ 31, (round24 p.2.toNat : Int) - 2 ^ 31, ?_⟩
  push_cast
  simp only [Prod.mk.injEq]
  constructor <;> ring

theorem polarReal_sq (mean sigma : ℝ) (v : ℝ × ℝ) (h0 : 0 < normSq2 v) (h1 : normSq2 v < 1) (c : ℝ) :
    (polarReal mean sigma (normSq2 v) c - mean) ^ 2 * normSq2 v = sigma ^ 2 * (-2 * Real.log (normSq2 v)) * c ^ 2 := by
  have hl := Real.log_neg h0 h1
  have hq : 0 ≤ -2 * Real.log (normSq2 v) / normSq2 v := div_nonneg (by linarith) h0.le
  unfold polarReal
  rw [add_sub_cancel_right, mul_pow, mul_pow, Real.sq_sqrt hq]
  have := h0.ne'
  generalize normSq2 v = s at *
  field_simp

/-- The two samples of a point of the disc other than the centre: the direction is that of the point, and the square of the
distance from the mean is `-2 sigma² log s`. -/
theorem c74_pair (mean sigma : ℝ) (v : ℝ × ℝ) (h0 : 0 < normSq2 v) (h1 : normSq2 v < 1) :
    (polarReal mean sigma (normSq2 v) v.1 - mean) ^ 2 + (polarReal mean sigma (normSq2 v) v.2 - mean) ^ 2 =
        sigma ^ 2 * (-2 * Real.log (normSq2 v)) ∧
      (polarReal mean sigma (normSq2 v) v.1 - mean) * v.2 = (polarReal mean sigma (normSq2 v) v.2 - mean) * v.1 := by
  constructor
  · have a := polarReal_sq mean sigma v h0 h1 v.1
    have b := polarReal_sq mean sigma v h0 h1 v.2
    have e : v.1 ^ 2 + v.2 ^ 2 = normSq2 v := by unfold normSq2; ring
    apply mul_right_cancel₀ h0.ne'
    rw [add_mul, a, b, ← mul_add, e]
  · unfold polarReal
    ring

/-- Every sample that is a number is less than 9.3 standard deviations away from the mean. -/
theorem c74_bounded (vs : List (BitVec 32)) (mean sigma x : ℝ) (v : ℚ × ℚ) (hv : v ∈ discPoints vs)
    (hx : GVal.val x ∈ polarPair mean sigma v) : (x - mean) ^ 2 ≤ 124 * Real.log 2 * sigma ^ 2 := by
  obtain ⟨h1, a, b, rfl⟩ := discPoints_mem vs v hv
  have hs : normSq2 ((a : ℚ) / 2 ^ 31, (b : ℚ) / 2 ^ 31) = ((a * a + b * b : Int) : ℚ) / 2 ^ 62 := by
    unfold normSq2
    push_cast
    ring
  have hne : normSq2 ((a : ℚ) / 2 ^ 31, (b : ℚ) / 2 ^ 31) ≠ 0 := by
    intro h
    unfold polarPair polarVal at hx
    simp [h] at hx
  have hi : 1 ≤ a * a + b * b := by
    rcases lt_or_eq_of_le (by nlinarith [mul_self_nonneg a, mul_self_nonneg b] : 0 ≤ a * a + b * b) with h | h
    · omega
    · rw [hs, ← h] at hne
      simp at hne
  generalize hw : (((a : ℚ) / 2 ^ 31, (b : ℚ) / 2 ^ 31) : ℚ × ℚ) = w at *
  have hcast : ((normSq2 w : ℚ) : ℝ) = normSq2 ((w.1 : ℝ), (w.2 : ℝ)) := by
    unfold normSq2
    push_cast
    rfl
  have hlow : (2 : ℝ) ^ (-62 : ℤ) ≤ ((normSq2 w : ℚ) : ℝ) := by
    have : (1 : ℝ) ≤ ((a * a + b * b : Int) : ℝ) := by exact_mod_cast hi
    rw [hs]
    push_cast at this ⊢
    rw [le_div_iff₀ (by positivity)]
    norm_num
    linarith
  have h0 : (0 : ℝ) < ((normSq2 w : ℚ) : ℝ) := lt_of_lt_of_le (by positivity) hlow
  have h1' : ((normSq2 w : ℚ) : ℝ) < 1 := by exact_mod_cast h1
  have hlog : -62 * Real.log 2 ≤ Real.log ((normSq2 w : ℚ) : ℝ) := by
    have := Real.log_le_log (by positivity) hlow
    rw [Real.log_zpow] at this
    push_cast at this
    exact this
  have key : ∀ c : ℝ, c ^ 2 ≤ ((normSq2 w : ℚ) : ℝ) →
      (polarReal mean sigma ((normSq2 w : ℚ) : ℝ) c - mean) ^ 2 ≤ 124 * Real.log 2 * sigma ^ 2 := by
    intro c hc
    have hp := polarReal_sq mean sigma ((w.1 : ℝ), (w.2 : ℝ)) (hcast ▸ h0) (hcast ▸ h1') c
    rw [← hcast] at hp
    generalize (polarReal mean sigma _ c - mean) ^ 2 = q at *
    generalize ((normSq2 w : ℚ) : ℝ) = s at *
    have hL := Real.log_neg h0 h1'
    have h3 : q * s ≤ sigma ^ 2 * (-2 * Real.log s) * s := by
      rw [hp]
      exact mul_le_mul_of_nonneg_left hc (mul_nonneg (sq_nonneg _) (by linarith))
    have h4 := le_of_mul_le_mul_right h3 h0
    nlinarith [sq_nonneg sigma]
  unfold polarPair polarVal at hx
  rw [if_neg hne, if_neg hne] at hx
  simp only [List.mem_cons, List.not_mem_nil, or_false, GVal.val.injEq] at hx
  rcases hx with rfl | rfl
  · apply key
    rw [hcast]
    unfold normSq2
    nlinarith [mul_self_nonneg (w.2 : ℝ)]
  · apply key
    rw [hcast]
    unfold normSq2
    nlinarith [mul_self_nonneg (w.1 : ℝ)]

/-- If the point is uniformly distributed on the disc, the two samples are independent, and both have the normal distribution
with the given mean and standard deviation. -/
theorem c74_normal (mean sigma : ℝ) :
    uniformDisc.map (fun v => (polarReal mean sigma (normSq2 v) v.1, polarReal mean sigma (normSq2 v) v.2)) =
      (gaussianReal mean (Real.toNNReal (sigma ^ 2))).prod (gaussianReal mean (Real.toNNReal (sigma ^ 2))) := by
  have e : (fun v : ℝ × ℝ => (polarReal mean sigma (normSq2 v) v.1, polarReal mean sigma (normSq2 v) v.2)) =
      (Prod.map (fun x => sigma * x + mean) (fun x => sigma * x + mean)) ∘ stdPolar := by
    ext v <;> simp only [polarReal, normSq2, stdPolar, Function.comp, Prod.map] <;> ring
  have hm : Measurable (fun x : ℝ => sigma * x + mean) := by fun_prop
  have h1 : (gaussianReal 0 1).map (fun x => sigma * x + mean) = gaussianReal mean (Real.toNNReal (sigma ^ 2)) := by
    have : (fun x : ℝ => sigma * x + mean) = (fun x => x + mean) ∘ (fun x => sigma * x) := rfl
    rw [this, ← Measure.map_map (by fun_prop) (by fun_prop), gaussianReal_map_const_mul, gaussianReal_map_add_const]
    congr 1
    · simp
    · ext
      simp [sq_nonneg]
  rw [e, ← Measure.map_map (hm.prodMap hm) measurable_stdPolar, map_stdPolar, ← Measure.map_prod_map _ _ hm hm, h1]

/-- Repeating until the point is in the disc: the uniform distribution on the square `[-1, 1]²`, given that the point is in the
disc, is the uniform distribution on the disc. -/
theorem c74_reject :
    ProbabilityTheory.cond ((volume (Set.Icc (-1 : ℝ) 1 ×ˢ Set.Icc (-1 : ℝ) 1))⁻¹ • volume.restrict (Set.Icc (-1 : ℝ) 1 ×ˢ Set.Icc (-1 : ℝ) 1))
      openDisc = uniformDisc := by
  have hsub : openDisc ⊆ Set.Icc (-1 : ℝ) 1 ×ˢ Set.Icc (-1 : ℝ) 1 := by
    rintro ⟨a, b⟩ h
    have h' : a * a + b * b < 1 := h
    refine ⟨⟨?_, ?_⟩, ⟨?_, ?_⟩⟩ <;> simp only <;> nlinarith [mul_self_nonneg a, mul_self_nonneg b]
  have hv : volume (Set.Icc (-1 : ℝ) 1 ×ˢ Set.Icc (-1 : ℝ) 1) = 4 := by
    rw [Measure.volume_eq_prod, Measure.prod_prod, Real.volume_Icc]
    rw [← ENNReal.ofReal_mul (by norm_num)]
    norm_num
  rw [hv]
  unfold ProbabilityTheory.cond uniformDisc
  rw [Measure.smul_apply, Measure.restrict_smul, Measure.restrict_restrict measurableSet_openDisc,
    Measure.restrict_apply measurableSet_openDisc, Set.inter_eq_self_of_subset_left hsub, smul_smul, smul_eq_mul,
    ENNReal.mul_inv (Or.inl (by norm_num)) (Or.inl (by norm_num)), inv_inv, mul_right_comm,
    ENNReal.mul_inv_cancel (by norm_num) (by norm_num), one_mul]

/-! ## Who owns the uniform sampler -/

/-- Without a uniform sampler the Gaussian one makes its own, and frees it again. -/
theorem c74_free_own (h : GHeap) :
    gaussFree (gaussNew none h).1 (gaussNew none h).2 = some { h with next := h.next + 2 } := by
  simp [gaussNew, gaussFree, uniformNew, uniformFree]

/-- A uniform sampler that is given to a Gaussian one is freed together with it: it may not be freed by its owner. -/
theorem c74_free_given (h : GHeap) (u : Nat) (hu : u ∈ h.uniform) (hnd : h.uniform.Nodup) :
    ∃ h', gaussFree (gaussNew (some u) h).1 (gaussNew (some u) h).2 = some h' ∧ u ∉ h'.uniform ∧ uniformFree u h' = none := by
  have hn : u ∉ h.uniform.erase u := hnd.not_mem_erase
  refine ⟨{ h with uniform := h.uniform.erase u, next := h.next + 1 }, ?_, hn, ?_⟩
  · simp [gaussNew, gaussFree, uniformFree, hu]
  · simp [uniformFree, hn]

/-- Two Gaussian samplers that share a uniform one cannot both be freed. -/
theorem c74_free_shared (h : GHeap) (u : Nat) (hnd : h.uniform.Nodup)
    (h1 : GHeap) (h1e : h1 = (gaussNew (some u) h).2) (h2 : GHeap) (h2e : h2 = (gaussNew (some u) h1).2) (h3 : GHeap)
    (h3e : gaussFree h1.next h2 = some h3) : gaussFree h.next h3 = none := by
  subst h1e h2e
  have hn : u ∉ h.uniform.erase u := hnd.not_mem_erase
  simp only [gaussNew, gaussFree, uniformFree] at h3e
  simp only [List.find?_cons, beq_self_eq_true] at h3e
  by_cases hu : u ∈ h.uniform
  · simp only [hu, if_true, Option.some.injEq] at h3e
    subst h3e
    simp [gaussFree, uniformFree, hn]
  · simp [hu] at h3e

/-! ## Examples -/

/-- A sample that is a number: the numbers give the point `(1/2, 0)`. -/
example : discPoints [0#32, 0#32, 3221225472#32, 2147483648#32] = [(1 / 2, 0)] := by decide +kernel

/-- The first point of the last example is rejected, and a call for one sample uses all four numbers. -/
example (mean sigma : ℝ) (y z : GVal) :
    gaussSample [0#32, 0#32, 3221225472#32, 2147483648#32] 1 [y, z] mean sigma =
      .done ([.val (polarReal mean sigma ((1 / 4 : ℚ) : ℝ) ((1 / 2 : ℚ) : ℝ)), z], []) := by
  have hd : polarDraw [0#32, 0#32, 3221225472#32, 2147483648#32] = some ((1 / 2, 0), []) := by decide +kernel
  unfold gaussSample
  rw [if_neg (by omega), gaussLoop, if_neg (by omega), gaussLast, if_pos (by omega), hd]
  have : polarNorm (1 / 2, 0) = 1 / 4 := by decide +kernel
  simp only [this, storeSample, polarVal]
  norm_num

/-- The hypotheses of `c74_free_shared` can be met. -/
example : (gaussFree 11 (gaussNew (some 3) (gaussNew (some 3) ⟨[3], [], 10⟩).2).2).isSome = true := by decide

end Nx
