import Mathlib.Analysis.SpecialFunctions.Gaussian.GaussianIntegral
import Mathlib.Analysis.Real.Pi.Bounds
import Mathlib.Analysis.Calculus.Deriv.MeanValue
import Mathlib.MeasureTheory.Integral.IntervalIntegral.FundThmCalculus
import Mathlib.MeasureTheory.Integral.IntegralEqImproper
import Mathlib.Tactic.FieldSimp
import Mathlib.Tactic.Linarith
import Mathlib.Tactic.NormNum
import Mathlib.Tactic.Positivity
import Mathlib.Tactic.Ring

/-!
# The Gaussian integral and a rational approximation of the error function
-/

namespace Nx

open Real Filter Topology

/-- `∫₀ˣ exp (-s²) ds`. -/
noncomputable def gaussInt (x : ℝ) : ℝ := ∫ s in (0 : ℝ)..x, exp (-(s ^ 2))

theorem gauss_cont : Continuous fun s : ℝ => exp (-(s ^ 2)) := by fun_prop

theorem gaussInt_deriv (x : ℝ) : HasDerivAt gaussInt (exp (-(x ^ 2))) x :=
  intervalIntegral.integral_hasDerivAt_right (gauss_cont.intervalIntegrable _ _) (gauss_cont.stronglyMeasurableAtFilter _ _)
    gauss_cont.continuousAt

theorem gaussInt_zero : gaussInt 0 = 0 := by simp [gaussInt]

theorem gaussInt_odd (x : ℝ) : gaussInt (-x) = -gaussInt x := by
  unfold gaussInt
  have h := intervalIntegral.integral_comp_neg (a := 0) (b := x) (fun s : ℝ => exp (-(s ^ 2)))
  simp only [neg_sq, neg_zero] at h
  rw [h, intervalIntegral.integral_symm]

theorem gaussInt_mono : Monotone gaussInt :=
  monotone_of_deriv_nonneg (fun x => (gaussInt_deriv x).differentiableAt) fun x => by
    rw [(gaussInt_deriv x).deriv]
    exact (exp_pos _).le

theorem gaussInt_lim : Tendsto gaussInt atTop (𝓝 (√π / 2)) := by
  have h := integral_gaussian_Ioi 1
  rw [div_one] at h
  rw [← h]
  have hi : MeasureTheory.IntegrableOn (fun x : ℝ => exp (-1 * x ^ 2)) (Set.Ioi 0) :=
    (integrable_exp_neg_mul_sq one_pos).integrableOn
  have := MeasureTheory.intervalIntegral_tendsto_integral_Ioi 0 hi tendsto_id
  refine this.congr fun x => ?_
  simp [gaussInt]

theorem gaussInt_le (x : ℝ) : gaussInt x ≤ √π / 2 := gaussInt_mono.ge_of_tendsto gaussInt_lim x

theorem gaussInt_nonneg {x : ℝ} (h : 0 ≤ x) : 0 ≤ gaussInt x := by
  rw [← gaussInt_zero]
  exact gaussInt_mono h

/-- `2 / √π`. -/
noncomputable def erfC : ℝ := 2 / √π

theorem erfC_gt : (1.1283791670955 : ℝ) ≤ erfC := by
  unfold erfC
  rw [le_div_iff₀ (by positivity)]
  have h := pi_lt_d20
  have : √π ≤ 2 / 1.1283791670955 := by
    apply Real.sqrt_le_iff.mpr
    constructor
    · norm_num
    · refine h.le.trans ?_
      norm_num
  calc 1.1283791670955 * √π ≤ 1.1283791670955 * (2 / 1.1283791670955) := by
        apply mul_le_mul_of_nonneg_left this
        norm_num
    _ = 2 := by norm_num

theorem erfC_lt : erfC ≤ (1.1283791670956 : ℝ) := by
  unfold erfC
  rw [div_le_iff₀ (by positivity)]
  have h := pi_gt_d20
  have : 2 / 1.1283791670956 ≤ √π := by
    apply Real.le_sqrt_of_sq_le
    refine le_trans ?_ h.le
    norm_num
  calc (2 : ℝ) = 1.1283791670956 * (2 / 1.1283791670956) := by norm_num
    _ ≤ 1.1283791670956 * √π := by
        apply mul_le_mul_of_nonneg_left this
        norm_num

theorem sqrtPi_le : √π / 2 ≤ 1 := by
  have : √π ≤ 2 := by
    apply Real.sqrt_le_iff.mpr
    constructor
    · norm_num
    · have := pi_lt_d20
      linarith
  linarith

/-! ## Partial sums -/

/-- Partial sums of `exp (-y)`. -/
noncomputable def expPart (n : Nat) (y : ℝ) : ℝ := ∑ k ∈ Finset.range n, (-1) ^ k * y ^ k / (k.factorial : ℝ)

/-- Partial sums of `gaussInt`. -/
noncomputable def gaussPart (n : Nat) (x : ℝ) : ℝ := ∑ k ∈ Finset.range n, (-1) ^ k * x ^ (2 * k + 1) / ((k.factorial : ℝ) * (2 * k + 1))

theorem expPart_deriv (n : Nat) (y : ℝ) : HasDerivAt (expPart (n + 1)) (-expPart n y) y := by
  induction n with
  | zero =>
    have : expPart (0 + 1) = fun _ => 1 := by
      funext z
      simp [expPart]
    rw [this]
    simpa [expPart] using hasDerivAt_const y (1 : ℝ)
  | succ n ih =>
    have e1 : expPart (n + 1 + 1) = fun z => expPart (n + 1) z + (-1) ^ (n + 1) * z ^ (n + 1) / ((n + 1).factorial : ℝ) := by
      funext z
      simp only [expPart]
      rw [Finset.sum_range_succ _ (n + 1)]
    have e2 : -expPart (n + 1) y = -expPart n y + (-1) ^ (n + 1) * (((n + 1 : ℕ) : ℝ) * y ^ (n + 1 - 1)) / ((n + 1).factorial : ℝ) := by
      simp only [expPart]
      rw [Finset.sum_range_succ _ n, Nat.factorial_succ]
      have : ((n.factorial : ℕ) : ℝ) ≠ 0 := by positivity
      have : ((n : ℝ) + 1) ≠ 0 := by positivity
      push_cast
      field_simp
      ring
    rw [e1, e2]
    exact ih.add (((hasDerivAt_pow (n + 1) y).const_mul _).div_const _)

theorem gaussPart_deriv (n : Nat) (x : ℝ) : HasDerivAt (gaussPart n) (expPart n (x ^ 2)) x := by
  induction n with
  | zero =>
    have : gaussPart 0 = fun _ => 0 := by
      funext z
      simp [gaussPart]
    rw [this]
    simpa [expPart] using hasDerivAt_const x (0 : ℝ)
  | succ n ih =>
    have e1 : gaussPart (n + 1) = fun z => gaussPart n z + (-1) ^ n * z ^ (2 * n + 1) / ((n.factorial : ℝ) * (2 * n + 1)) := by
      funext z
      simp only [gaussPart]
      rw [Finset.sum_range_succ]
    have e2 : expPart (n + 1) (x ^ 2) = expPart n (x ^ 2) +
        (-1) ^ n * (((2 * n + 1 : ℕ) : ℝ) * x ^ (2 * n + 1 - 1)) / ((n.factorial : ℝ) * (2 * n + 1)) := by
      simp only [expPart]
      rw [Finset.sum_range_succ]
      have h1 : ((n.factorial : ℕ) : ℝ) ≠ 0 := by positivity
      have h2 : (2 * (n : ℝ) + 1) ≠ 0 := by positivity
      congr 1
      rw [Nat.add_sub_cancel, pow_mul]
      push_cast
      field_simp
    rw [e1, e2]
    exact ih.add (((hasDerivAt_pow (2 * n + 1) x).const_mul _).div_const _)

/-- The partial sums are above and below in turn. -/
theorem expPart_alt (n : Nat) : ∀ y : ℝ, 0 ≤ y → 0 ≤ (-1) ^ n * (exp (-y) - expPart n y) := by
  induction n with
  | zero =>
    intro y _
    simp [expPart, (exp_pos _).le]
  | succ n ih =>
    intro y hy
    have hd : ∀ z, HasDerivAt (fun z => (-1) ^ (n + 1) * (exp (-z) - expPart (n + 1) z)) ((-1) ^ n * (exp (-z) - expPart n z)) z := by
      intro z
      have h1 : HasDerivAt (fun z : ℝ => exp (-z)) (exp (-z) * -1) z := (hasDerivAt_neg z).exp
      have h2 := (h1.sub (expPart_deriv n z)).const_mul ((-1 : ℝ) ^ (n + 1))
      have e : (-1 : ℝ) ^ n * (exp (-z) - expPart n z) = (-1) ^ (n + 1) * (exp (-z) * -1 - -expPart n z) := by ring
      rw [e]
      exact h2
    have hm : MonotoneOn (fun z => (-1) ^ (n + 1) * (exp (-z) - expPart (n + 1) z)) (Set.Ici 0) := by
      apply monotoneOn_of_deriv_nonneg (convex_Ici 0)
      · exact fun z _ => (hd z).continuousAt.continuousWithinAt
      · exact fun z _ => (hd z).differentiableAt.differentiableWithinAt
      · intro z hz
        rw [(hd z).deriv]
        rw [interior_Ici] at hz
        exact ih z (le_of_lt hz)
    have h0 : (fun z => (-1 : ℝ) ^ (n + 1) * (exp (-z) - expPart (n + 1) z)) 0 = 0 := by
      have : expPart (n + 1) 0 = 1 := by
        simp only [expPart]
        rw [Finset.sum_range_succ']
        simp
      simp [this]
    have := hm (Set.mem_Ici.mpr (le_refl 0)) (Set.mem_Ici.mpr hy) hy
    rw [h0] at this
    exact this

theorem gaussPart_alt (n : Nat) (x : ℝ) (hx : 0 ≤ x) : 0 ≤ (-1) ^ n * (gaussInt x - gaussPart n x) := by
  have hd : ∀ z, HasDerivAt (fun z => (-1) ^ n * (gaussInt z - gaussPart n z)) ((-1) ^ n * (exp (-(z ^ 2)) - expPart n (z ^ 2))) z :=
    fun z => ((gaussInt_deriv z).sub (gaussPart_deriv n z)).const_mul _
  have hm : Monotone (fun z => (-1) ^ n * (gaussInt z - gaussPart n z)) := by
    apply monotone_of_deriv_nonneg
    · exact fun z => (hd z).differentiableAt
    · intro z
      rw [(hd z).deriv]
      exact expPart_alt n _ (sq_nonneg z)
  have h0 : (fun z => (-1 : ℝ) ^ n * (gaussInt z - gaussPart n z)) 0 = 0 := by
    have : gaussPart n 0 = 0 := by simp [gaussPart]
    simp [this, gaussInt_zero]
  have := hm hx
  rw [h0] at this
  exact this

end Nx
