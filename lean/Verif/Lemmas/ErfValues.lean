import Verif.Lemmas.ErfError
import Mathlib.Algebra.Order.Field.Rat

/-!
# Values of the error of `nx_erf`

Partial sums of the exponential series with rational numbers enclose the error at the zeros of its derivative.
-/

namespace Nx

open Real

/-- The terms of `exp (-y)`. -/
def expTermQ (y : ℚ) : Nat → ℚ
  | 0 => 1
  | n + 1 => expTermQ y n * -y / (n + 1)

/-- Their sums. -/
def expSumQ (y : ℚ) : Nat → ℚ
  | 0 => 0
  | n + 1 => expSumQ y n + expTermQ y n

/-- The sums of the integrals of the terms. -/
def gaussSumQ (x : ℚ) : Nat → ℚ
  | 0 => 0
  | n + 1 => gaussSumQ x n + expTermQ (x * x) n * x / (2 * n + 1)

/-- The polynomial of `nx_erf`. -/
def erfGQ (t : ℚ) : ℚ :=
  1.061405429 * (t * t * t * t * t) - 1.453152027 * (t * t * t * t) + 1.421413741 * (t * t * t) - 0.284496736 * (t * t) + 0.254829592 * t

theorem expTermQ_cast (y : ℚ) (n : Nat) : ((expTermQ y n : ℚ) : ℝ) = (-1) ^ n * (y : ℝ) ^ n / (n.factorial : ℝ) := by
  induction n with
  | zero => simp [expTermQ]
  | succ n ih =>
    rw [expTermQ]
    push_cast
    rw [ih, Nat.factorial_succ]
    have : ((n.factorial : ℕ) : ℝ) ≠ 0 := by positivity
    have : ((n : ℝ) + 1) ≠ 0 := by positivity
    push_cast
    field_simp
    ring

theorem expSumQ_cast (y : ℚ) (n : Nat) : ((expSumQ y n : ℚ) : ℝ) = expPart n y := by
  induction n with
  | zero => simp [expSumQ, expPart]
  | succ n ih =>
    rw [expSumQ]
    push_cast
    rw [ih, expTermQ_cast]
    simp only [expPart]
    rw [Finset.sum_range_succ]

theorem gaussSumQ_cast (x : ℚ) (n : Nat) : ((gaussSumQ x n : ℚ) : ℝ) = gaussPart n x := by
  induction n with
  | zero => simp [gaussSumQ, gaussPart]
  | succ n ih =>
    rw [gaussSumQ]
    push_cast
    rw [ih, expTermQ_cast]
    simp only [gaussPart]
    rw [Finset.sum_range_succ]
    have h1 : ((n.factorial : ℕ) : ℝ) ≠ 0 := by positivity
    have h2 : (2 * (n : ℝ) + 1) ≠ 0 := by positivity
    push_cast
    field_simp
    ring

theorem erfGQ_cast (t : ℚ) : ((erfGQ t : ℚ) : ℝ) = erfG t := by
  unfold erfGQ erfG
  push_cast
  ring

/-- The `x` of a `t`. -/
def erfXQ (t : ℚ) : ℚ := (1 - t) / (0.3275911 * t)

theorem erfT_X {t : ℚ} (h : 0 < t) : erfT (erfXQ t) = t := by
  have h' : (0 : ℝ) < t := by exact_mod_cast h
  unfold erfT erfXQ erfP
  push_cast
  field_simp
  ring

/-- What the sums say about the error. -/
theorem erfE_at (t : ℚ) (n : Nat) (h : 0 < t) (h1 : t ≤ 1) (hg : 0 ≤ erfGQ t) :
    ((1 - erfGQ t * expSumQ (erfXQ t * erfXQ t) (2 * n + 1) - 1.1283791670956 * gaussSumQ (erfXQ t) (2 * n + 1) : ℚ) : ℝ) ≤
      erfE (erfXQ t) ∧
    erfE (erfXQ t) ≤
      ((1 - erfGQ t * expSumQ (erfXQ t * erfXQ t) (2 * n) - 1.1283791670955 * gaussSumQ (erfXQ t) (2 * n) : ℚ) : ℝ) := by
  have hx : (0 : ℝ) ≤ (erfXQ t : ℝ) := by
    have : (0 : ℚ) ≤ erfXQ t := by
      unfold erfXQ
      apply div_nonneg <;> [linarith; positivity]
    exact_mod_cast this
  have hg' : (0 : ℝ) ≤ erfG t := by
    rw [← erfGQ_cast]
    exact_mod_cast hg
  have a1 := expPart_alt (2 * n) ((erfXQ t : ℝ) ^ 2) (sq_nonneg _)
  have a2 := expPart_alt (2 * n + 1) ((erfXQ t : ℝ) ^ 2) (sq_nonneg _)
  have b1 := gaussPart_alt (2 * n) (erfXQ t) hx
  have b2 := gaussPart_alt (2 * n + 1) (erfXQ t) hx
  rw [pow_mul, neg_one_sq, one_pow, one_mul] at a1 b1
  rw [pow_succ, pow_mul, neg_one_sq, one_pow, one_mul] at a2 b2
  have hI := gaussInt_nonneg hx
  have c1 := erfC_gt
  have c2 := erfC_lt
  have d1 := mul_le_mul_of_nonneg_right c1 hI
  have d2 := mul_le_mul_of_nonneg_right c2 hI
  unfold erfE
  rw [erfT_X h]
  push_cast
  rw [erfGQ_cast, expSumQ_cast, expSumQ_cast, gaussSumQ_cast, gaussSumQ_cast]
  push_cast
  rw [← pow_two]
  constructor
  · have e1 := mul_le_mul_of_nonneg_left (show exp (-((erfXQ t : ℝ) ^ 2)) ≤ expPart (2 * n + 1) ((erfXQ t : ℝ) ^ 2) by linarith) hg'
    linarith
  · have e1 := mul_le_mul_of_nonneg_left (show expPart (2 * n) ((erfXQ t : ℝ) ^ 2) ≤ exp (-((erfXQ t : ℝ) ^ 2)) by linarith) hg'
    linarith

/-- Whether the sums show that the error is at most `1.395e-7`. -/
def erfOkQ (t : ℚ) (n : Nat) : Bool :=
  decide (0 < t) && decide (t ≤ 1) && decide (0 ≤ erfGQ t) &&
    decide (-0.0000001395 ≤ 1 - erfGQ t * expSumQ (erfXQ t * erfXQ t) (2 * n + 1) - 1.1283791670956 * gaussSumQ (erfXQ t) (2 * n + 1)) &&
    decide (1 - erfGQ t * expSumQ (erfXQ t * erfXQ t) (2 * n) - 1.1283791670955 * gaussSumQ (erfXQ t) (2 * n) ≤ 0.0000001395)

theorem erfE_ok {t : ℚ} {n : Nat} (h : erfOkQ t n = true) :
    0 < t ∧ t ≤ 1 ∧ -0.0000001395 ≤ erfE (erfXQ t) ∧ erfE (erfXQ t) ≤ 0.0000001395 := by
  simp only [erfOkQ, Bool.and_eq_true, decide_eq_true_eq] at h
  obtain ⟨⟨⟨⟨h1, h2⟩, h3⟩, h4⟩, h5⟩ := h
  obtain ⟨e1, e2⟩ := erfE_at t n h1 h2 h3
  refine ⟨h1, h2, le_trans ?_ e1, le_trans e2 ?_⟩
  · have : (((-0.0000001395 : ℚ)) : ℝ) ≤ _ := Rat.cast_le.mpr h4
    refine le_trans (le_of_eq ?_) this
    norm_num
  · have : _ ≤ (((0.0000001395 : ℚ)) : ℝ) := Rat.cast_le.mpr h5
    refine le_trans this (le_of_eq ?_)
    norm_num

theorem erfOk_1 : erfOkQ (98542782 / 100000000) 6 = true := by decide +kernel
theorem erfOk_2 : erfOkQ (93211443 / 100000000) 6 = true := by decide +kernel
theorem erfOk_3 : erfOkQ (85742038 / 100000000) 8 = true := by decide +kernel
theorem erfOk_4 : erfOkQ (77313414 / 100000000) 10 = true := by decide +kernel
theorem erfOk_5 : erfOkQ (68551721 / 100000000) 14 = true := by decide +kernel
theorem erfOk_6 : erfOkQ (58896482 / 100000000) 18 = true := by decide +kernel

end Nx
