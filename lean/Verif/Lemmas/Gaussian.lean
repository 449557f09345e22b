import Verif.Spec.Gaussian
import Mathlib.Analysis.SpecialFunctions.PolarCoord
import Mathlib.Probability.Distributions.Gaussian.Real
import Mathlib.MeasureTheory.Function.JacobianOneDim

/-!
# The polar method turns the uniform distribution on the disc into two independent normal distributions
-/

namespace Nx

open MeasureTheory ProbabilityTheory Set Real
open scoped ENNReal

/-- The map of the polar method for mean zero and variance one. -/
noncomputable def stdPolar (v : ℝ × ℝ) : ℝ × ℝ :=
  (√(-2 * Real.log (v.1 * v.1 + v.2 * v.2) / (v.1 * v.1 + v.2 * v.2)) * v.1,
   √(-2 * Real.log (v.1 * v.1 + v.2 * v.2) / (v.1 * v.1 + v.2 * v.2)) * v.2)

theorem measurable_stdPolar : Measurable stdPolar := by
  unfold stdPolar
  fun_prop

theorem measurableSet_openDisc : MeasurableSet openDisc := by
  unfold openDisc normSq2
  exact measurableSet_lt (by fun_prop) (by fun_prop)

theorem stdPolar_symm (r θ : ℝ) (hr : 0 < r) (h1 : r < 1) :
    stdPolar (polarCoord.symm (r, θ)) = polarCoord.symm (√(-4 * Real.log r), θ) := by
  have e : r * cos θ * (r * cos θ) + r * sin θ * (r * sin θ) = r ^ 2 := by
    have := cos_sq_add_sin_sq θ
    nlinarith
  have hl : Real.log r < 0 := Real.log_neg hr h1
  have e2 : √(-2 * Real.log (r ^ 2) / r ^ 2) * r = √(-4 * Real.log r) := by
    rw [Real.log_pow, Real.sqrt_div' _ (by positivity), Real.sqrt_sq hr.le, div_mul_cancel₀ _ hr.ne']
    congr 1
    push_cast
    ring
  unfold stdPolar
  simp only [polarCoord_symm_apply, e]
  rw [← mul_assoc, ← mul_assoc, e2]

theorem symm_mem_openDisc (r θ : ℝ) (hr : 0 < r) : polarCoord.symm (r, θ) ∈ openDisc ↔ r < 1 := by
  have e : r * cos θ * (r * cos θ) + r * sin θ * (r * sin θ) = r ^ 2 := by
    have := cos_sq_add_sin_sq θ
    nlinarith
  unfold openDisc normSq2
  simp only [polarCoord_symm_apply, mem_ofPred_eq, e]
  constructor
  · intro h; nlinarith
  · intro h; nlinarith

/-- The substitution for the distance from the origin. -/
theorem polar_radial (F : ℝ → ℝ≥0∞) :
    ∫⁻ r in Ioi (0 : ℝ), ENNReal.ofReal r * (if r < 1 then F (√(-4 * Real.log r)) else 0) =
      ∫⁻ ρ in Ioi (0 : ℝ), ENNReal.ofReal ρ * (ENNReal.ofReal (rexp (-ρ ^ 2 / 2) / 2) * F ρ) := by
  have himg : (fun ρ : ℝ => rexp (-ρ ^ 2 / 4)) '' Ioi 0 = Ioo 0 1 := by
    ext x
    simp only [mem_image, mem_Ioi, mem_Ioo]
    constructor
    · rintro ⟨ρ, h, rfl⟩
      exact ⟨Real.exp_pos _, by rw [Real.exp_lt_one_iff]; nlinarith⟩
    · rintro ⟨h0, h1⟩
      have hl := Real.log_neg h0 h1
      refine ⟨√(-4 * Real.log x), Real.sqrt_pos.mpr (by linarith), ?_⟩
      rw [Real.sq_sqrt (by linarith)]
      rw [show -(-4 * Real.log x) / 4 = Real.log x by ring, Real.exp_log h0]
  have hinj : InjOn (fun ρ : ℝ => rexp (-ρ ^ 2 / 4)) (Ioi 0) := by
    intro a ha b hb h
    simp only [mem_Ioi] at ha hb
    have := Real.exp_injective h
    nlinarith [mul_pos ha hb]
  have hder : ∀ x ∈ Ioi (0 : ℝ), HasDerivWithinAt (fun ρ : ℝ => rexp (-ρ ^ 2 / 4)) (rexp (-x ^ 2 / 4) * (-x / 2)) (Ioi 0) x := by
    intro x _
    apply HasDerivAt.hasDerivWithinAt
    have h1 : HasDerivAt (fun ρ : ℝ => -ρ ^ 2 / 4) (-x / 2) x := by
      have := ((hasDerivAt_pow 2 x).neg.div_const 4)
      have e : -x / 2 = -(((2 : ℕ) : ℝ) * x ^ (2 - 1)) / 4 := by
        push_cast
        ring
      rw [e]
      exact this
    exact h1.exp
  have key := lintegral_image_eq_lintegral_abs_deriv_mul measurableSet_Ioi hder hinj
    (fun r => ENNReal.ofReal r * F (√(-4 * Real.log r)))
  rw [himg] at key
  have lhs : ∫⁻ r in Ioi (0 : ℝ), ENNReal.ofReal r * (if r < 1 then F (√(-4 * Real.log r)) else 0) =
      ∫⁻ r in Ioo (0 : ℝ) 1, ENNReal.ofReal r * F (√(-4 * Real.log r)) := by
    rw [← lintegral_indicator measurableSet_Ioi, ← lintegral_indicator measurableSet_Ioo]
    congr 1
    ext r
    simp only [indicator, mem_Ioi, mem_Ioo]
    by_cases h0 : 0 < r <;> by_cases h1 : r < 1 <;> simp [h0, h1]
  rw [lhs, key]
  apply setLIntegral_congr_fun measurableSet_Ioi
  intro ρ hρ
  simp only [mem_Ioi] at hρ
  simp only
  rw [Real.log_exp, show -4 * (-ρ ^ 2 / 4) = ρ ^ 2 by ring, Real.sqrt_sq hρ.le, ← mul_assoc, ← mul_assoc,
    ← ENNReal.ofReal_mul (abs_nonneg _), ← ENNReal.ofReal_mul hρ.le]
  congr 2
  rw [abs_mul, abs_of_pos (Real.exp_pos _), show |-ρ / 2| = ρ / 2 by rw [neg_div, abs_neg, abs_of_pos (by linarith)],
    show -ρ ^ 2 / 2 = -ρ ^ 2 / 4 + -ρ ^ 2 / 4 by ring, Real.exp_add]
  ring

theorem lintegral_disc (f : ℝ × ℝ → ℝ≥0∞) (hf : Measurable f) :
    ∫⁻ v in openDisc, f (stdPolar v) =
      ∫⁻ p : ℝ × ℝ, ENNReal.ofReal (rexp (-(p.1 ^ 2 + p.2 ^ 2) / 2) / 2) * f p := by
  rw [← lintegral_indicator measurableSet_openDisc, ← lintegral_comp_polarCoord_symm, ← lintegral_comp_polarCoord_symm]
  have hT : (polarCoord.target : Set (ℝ × ℝ)) = Ioi 0 ×ˢ Ioo (-π) π := rfl
  have hpc : Measurable (fun p : ℝ × ℝ => polarCoord.symm p) := by
    simp only [polarCoord_symm_apply]
    fun_prop
  rw [hT, Measure.volume_eq_prod, ← Measure.prod_restrict, lintegral_prod_symm', lintegral_prod_symm']
  · congr 1
    ext θ
    have := polar_radial (fun ρ => f (polarCoord.symm (ρ, θ)))
    rw [setLIntegral_congr_fun (g := fun r => ENNReal.ofReal r * (if r < 1 then f (polarCoord.symm (√(-4 * Real.log r), θ)) else 0)) measurableSet_Ioi, this]
    · apply setLIntegral_congr_fun measurableSet_Ioi
      intro ρ hρ
      simp only [smul_eq_mul]
      congr 4
      simp only [polarCoord_symm_apply]
      have := cos_sq_add_sin_sq θ
      congr 2
      rw [mul_pow, mul_pow, ← mul_add, this, mul_one]
    · intro r hr
      simp only [mem_Ioi] at hr
      simp only [smul_eq_mul, indicator, symm_mem_openDisc r θ hr]
      by_cases h1 : r < 1
      · rw [if_pos h1, if_pos h1, stdPolar_symm r θ hr h1]
      · rw [if_neg h1, if_neg h1]
  · simp only [smul_eq_mul]
    apply Measurable.mul (by fun_prop)
    apply Measurable.mul _ (hf.comp hpc)
    simp only [polarCoord_symm_apply]
    fun_prop
  · simp only [smul_eq_mul]
    exact Measurable.mul (by fun_prop) (((hf.comp measurable_stdPolar).indicator measurableSet_openDisc).comp hpc)

theorem lintegral_gauss_prod (f : ℝ × ℝ → ℝ≥0∞) (hf : Measurable f) :
    ∫⁻ p, f p ∂((gaussianReal 0 1).prod (gaussianReal 0 1)) = ENNReal.ofReal (π⁻¹) *
      ∫⁻ p : ℝ × ℝ, ENNReal.ofReal (rexp (-(p.1 ^ 2 + p.2 ^ 2) / 2) / 2) * f p := by
  rw [gaussianReal_of_var_ne_zero 0 one_ne_zero, prod_withDensity (by fun_prop) (by fun_prop),
    ← Measure.volume_eq_prod, lintegral_withDensity_eq_lintegral_mul _ (by fun_prop) hf, ← lintegral_const_mul]
  · congr 1
    ext p
    simp only [Pi.mul_apply]
    rw [← mul_assoc]
    congr 1
    simp only [gaussianPDF, gaussianPDFReal]
    rw [← ENNReal.ofReal_mul (by positivity), ← ENNReal.ofReal_mul (by positivity)]
    congr 1
    have : √(2 * π * ((1 : NNReal) : ℝ)) * √(2 * π * ((1 : NNReal) : ℝ)) = 2 * π := by
      rw [Real.mul_self_sqrt (by positivity)]
      simp
    rw [show -(p.1 ^ 2 + p.2 ^ 2) / 2 = -(p.1 - 0) ^ 2 / (2 * ((1 : NNReal) : ℝ)) + -(p.2 - 0) ^ 2 / (2 * ((1 : NNReal) : ℝ)) by
      simp; ring, Real.exp_add]
    generalize rexp _ = a
    generalize rexp _ = b
    generalize √(2 * π * ((1 : NNReal) : ℝ)) = c at *
    rw [show c⁻¹ * a * (c⁻¹ * b) = (c * c)⁻¹ * (a * b) by rw [mul_inv]; ring, this]
    rw [mul_inv]
    ring
  · exact Measurable.mul (by fun_prop) hf

theorem volume_openDisc : volume openDisc = ENNReal.ofReal π := by
  have h1 := lintegral_disc (fun _ => 1) measurable_const
  have h2 := lintegral_gauss_prod (fun _ => 1) measurable_const
  rw [← h1] at h2
  simp only [lintegral_const, measure_univ, one_mul, Measure.restrict_apply, MeasurableSet.univ, univ_inter] at h2
  have h3 : ENNReal.ofReal π * ENNReal.ofReal π⁻¹ = 1 := by
    rw [← ENNReal.ofReal_mul Real.pi_pos.le, mul_inv_cancel₀ Real.pi_ne_zero, ENNReal.ofReal_one]
  calc volume openDisc = ENNReal.ofReal π * ENNReal.ofReal π⁻¹ * volume openDisc := by rw [h3, one_mul]
    _ = ENNReal.ofReal π := by rw [mul_assoc, ← h2, mul_one]

theorem map_stdPolar : uniformDisc.map stdPolar = (gaussianReal 0 1).prod (gaussianReal 0 1) := by
  apply Measure.ext_of_lintegral
  intro f hf
  rw [lintegral_map hf measurable_stdPolar, uniformDisc, lintegral_smul_measure, lintegral_disc f hf, lintegral_gauss_prod f hf,
    volume_openDisc, ENNReal.ofReal_inv_of_pos Real.pi_pos, smul_eq_mul]

end Nx
