import Verif.Lemmas.ErfSign
import Mathlib.Tactic.LinearCombination

/-!
# The error of `nx_erf`
-/

namespace Nx

open Real Filter Topology

/-- The polynomial of `nx_erf`. -/
noncomputable def erfG (t : ℝ) : ℝ :=
  1.061405429 * t ^ 5 - 1.453152027 * t ^ 4 + 1.421413741 * t ^ 3 - 0.284496736 * t ^ 2 + 0.254829592 * t

/-- Its argument. -/
noncomputable def erfT (x : ℝ) : ℝ := 1 / (1 + erfP * x)

/-- The error for `x ≥ 0`. -/
noncomputable def erfE (x : ℝ) : ℝ := 1 - erfG (erfT x) * exp (-(x ^ 2)) - erfC * gaussInt x

/-- The factor of the derivative of the error. -/
noncomputable def erfR (x : ℝ) : ℝ := erfQ (erfT x) / erfP - erfC

theorem erfP_pos : 0 < erfP := by
  unfold erfP
  norm_num

theorem erfDen_pos {x : ℝ} (h : 0 ≤ x) : 0 < 1 + erfP * x := by
  have := mul_nonneg erfP_pos.le h
  linarith

theorem erfT_pos {x : ℝ} (h : 0 ≤ x) : 0 < erfT x := div_pos one_pos (erfDen_pos h)

theorem erfT_le_one {x : ℝ} (h : 0 ≤ x) : erfT x ≤ 1 := by
  unfold erfT
  rw [div_le_one (erfDen_pos h)]
  have := mul_nonneg erfP_pos.le h
  linarith

theorem erfT_anti {x y : ℝ} (h : 0 ≤ x) (hxy : x ≤ y) : erfT y ≤ erfT x := by
  unfold erfT
  apply one_div_le_one_div_of_le (erfDen_pos h)
  have := mul_le_mul_of_nonneg_left hxy erfP_pos.le
  linarith

theorem erfG_deriv (t : ℝ) : HasDerivAt erfG
    (5 * 1.061405429 * t ^ 4 - 4 * 1.453152027 * t ^ 3 + 3 * 1.421413741 * t ^ 2 - 2 * 0.284496736 * t + 0.254829592) t := by
  have h := (((((hasDerivAt_pow 5 t).const_mul (1.061405429 : ℝ)).sub ((hasDerivAt_pow 4 t).const_mul (1.453152027 : ℝ))).add
    ((hasDerivAt_pow 3 t).const_mul (1.421413741 : ℝ))).sub ((hasDerivAt_pow 2 t).const_mul (0.284496736 : ℝ))).add
    ((hasDerivAt_id t).const_mul (0.254829592 : ℝ))
  have e : 5 * 1.061405429 * t ^ 4 - 4 * 1.453152027 * t ^ 3 + 3 * 1.421413741 * t ^ 2 - 2 * 0.284496736 * t + 0.254829592 =
      1.061405429 * (((5 : ℕ) : ℝ) * t ^ (5 - 1)) - 1.453152027 * (((4 : ℕ) : ℝ) * t ^ (4 - 1)) +
        1.421413741 * (((3 : ℕ) : ℝ) * t ^ (3 - 1)) - 0.284496736 * (((2 : ℕ) : ℝ) * t ^ (2 - 1)) + 0.254829592 * 1 := by
    norm_num
    ring
  rw [e]
  exact h

theorem erfT_deriv {x : ℝ} (h : 0 ≤ x) : HasDerivAt erfT (-erfP * erfT x ^ 2) x := by
  have hd : HasDerivAt (fun x : ℝ => 1 + erfP * x) (erfP * 1) x := ((hasDerivAt_id x).const_mul erfP).const_add 1
  have hi := hd.inv (erfDen_pos h).ne'
  have e : (fun x : ℝ => 1 + erfP * x)⁻¹ = erfT := by
    funext y
    simp [erfT]
  rw [e] at hi
  have e' : -erfP * erfT x ^ 2 = -(erfP * 1) / (1 + erfP * x) ^ 2 := by
    unfold erfT
    rw [div_pow]
    ring
  rw [e']
  exact hi

theorem erfE_deriv {x : ℝ} (h : 0 ≤ x) : HasDerivAt erfE (erfR x * exp (-(x ^ 2))) x := by
  have hg := (erfG_deriv (erfT x)).comp x (erfT_deriv h)
  have he : HasDerivAt (fun x : ℝ => exp (-(x ^ 2))) (exp (-(x ^ 2)) * -(((2 : ℕ) : ℝ) * x ^ (2 - 1))) x := (hasDerivAt_pow 2 x).neg.exp
  have h2 := ((hg.mul he).const_sub 1).sub ((gaussInt_deriv x).const_mul erfC)
  have hx : x = (1 - erfT x) / (erfP * erfT x) := by
    have hT : erfT x * (1 + erfP * x) = 1 := by
      unfold erfT
      exact one_div_mul_cancel (erfDen_pos h).ne'
    rw [eq_div_iff (mul_ne_zero erfP_pos.ne' (erfT_pos h).ne')]
    linear_combination hT
  have ht := (erfT_pos h).ne'
  have hp := erfP_pos.ne'
  refine h2.congr_deriv ?_
  unfold erfR
  have key : erfQ (erfT x) / erfP = erfP * erfT x ^ 2 *
      (5 * 1.061405429 * erfT x ^ 4 - 4 * 1.453152027 * erfT x ^ 3 + 3 * 1.421413741 * erfT x ^ 2 - 2 * 0.284496736 * erfT x +
        0.254829592) + 2 * x * erfG (erfT x) := by
    have e : 2 * x * erfG (erfT x) = 2 * ((1 - erfT x) / (erfP * erfT x)) * erfG (erfT x) := by rw [← hx]
    rw [e]
    have hQ : ∀ t, erfQ t = erfP ^ 2 * t ^ 2 *
      (5 * 1.061405429 * t ^ 4 - 4 * 1.453152027 * t ^ 3 + 3 * 1.421413741 * t ^ 2 - 2 * 0.284496736 * t + 0.254829592) +
      2 * (1 - t) * (1.061405429 * t ^ 4 - 1.453152027 * t ^ 3 + 1.421413741 * t ^ 2 - 0.284496736 * t + 0.254829592) := by
      intro t
      unfold erfQ erfP
      rfl
    rw [hQ]
    unfold erfG
    field_simp
  rw [key]
  simp only [Function.comp]
  norm_num
  ring

/-- Between two points where the derivative is not far below zero. -/
theorem erfE_up {a b x : ℝ} (h0 : 0 ≤ a) (ha : a ≤ x) (hb : x ≤ b) (hR : ∀ s, a ≤ s → s ≤ b → -(1 / 10 ^ 9) ≤ erfR s) :
    erfE a - 1 / 10 ^ 9 ≤ erfE x ∧ erfE x ≤ erfE b + 1 / 10 ^ 9 := by
  have hd : ∀ s, 0 ≤ s → HasDerivAt (fun s => erfE s + 1 / 10 ^ 9 * gaussInt s) ((erfR s + 1 / 10 ^ 9) * exp (-(s ^ 2))) s := by
    intro s hs
    have := (erfE_deriv hs).add ((gaussInt_deriv s).const_mul (1 / 10 ^ 9))
    exact this.congr_deriv (by ring)
  have hm : MonotoneOn (fun s => erfE s + 1 / 10 ^ 9 * gaussInt s) (Set.Icc a b) := by
    apply monotoneOn_of_deriv_nonneg (convex_Icc a b)
    · exact fun s hs => (hd s (h0.trans hs.1)).continuousAt.continuousWithinAt
    · intro s hs
      rw [interior_Icc] at hs
      exact (hd s (h0.trans hs.1.le)).differentiableAt.differentiableWithinAt
    · intro s hs
      rw [interior_Icc] at hs
      rw [(hd s (h0.trans hs.1.le)).deriv]
      apply mul_nonneg _ (exp_pos _).le
      have := hR s hs.1.le hs.2.le
      linarith
  have h1 := hm ⟨le_refl a, ha.trans hb⟩ ⟨ha, hb⟩ ha
  have h2 := hm ⟨ha, hb⟩ ⟨ha.trans hb, le_refl b⟩ hb
  simp only at h1 h2
  have g0 := gaussInt_nonneg h0
  have gx := gaussInt_nonneg (h0.trans ha)
  have gx' := gaussInt_le x
  have gb := gaussInt_le b
  have := sqrtPi_le
  constructor <;> linarith

/-- Between two points where the derivative is not far above zero. -/
theorem erfE_down {a b x : ℝ} (h0 : 0 ≤ a) (ha : a ≤ x) (hb : x ≤ b) (hR : ∀ s, a ≤ s → s ≤ b → erfR s ≤ 1 / 10 ^ 9) :
    erfE b - 1 / 10 ^ 9 ≤ erfE x ∧ erfE x ≤ erfE a + 1 / 10 ^ 9 := by
  have hd : ∀ s, 0 ≤ s → HasDerivAt (fun s => erfE s - 1 / 10 ^ 9 * gaussInt s) ((erfR s - 1 / 10 ^ 9) * exp (-(s ^ 2))) s := by
    intro s hs
    have := (erfE_deriv hs).sub ((gaussInt_deriv s).const_mul (1 / 10 ^ 9))
    exact this.congr_deriv (by ring)
  have hm : AntitoneOn (fun s => erfE s - 1 / 10 ^ 9 * gaussInt s) (Set.Icc a b) := by
    apply antitoneOn_of_deriv_nonpos (convex_Icc a b)
    · exact fun s hs => (hd s (h0.trans hs.1)).continuousAt.continuousWithinAt
    · intro s hs
      rw [interior_Icc] at hs
      exact (hd s (h0.trans hs.1.le)).differentiableAt.differentiableWithinAt
    · intro s hs
      rw [interior_Icc] at hs
      rw [(hd s (h0.trans hs.1.le)).deriv]
      apply mul_nonpos_of_nonpos_of_nonneg _ (exp_pos _).le
      have := hR s hs.1.le hs.2.le
      linarith
  have h1 := hm ⟨le_refl a, ha.trans hb⟩ ⟨ha, hb⟩ ha
  have h2 := hm ⟨ha, hb⟩ ⟨ha.trans hb, le_refl b⟩ hb
  simp only at h1 h2
  have g0 := gaussInt_nonneg h0
  have gx := gaussInt_nonneg (h0.trans ha)
  have gx' := gaussInt_le x
  have gb := gaussInt_le b
  have := sqrtPi_le
  constructor <;> linarith

/-- Far away the error vanishes. -/
theorem erfE_lim : Tendsto erfE atTop (𝓝 0) := by
  have h1 : Tendsto (fun x : ℝ => erfC * gaussInt x) atTop (𝓝 (erfC * (√π / 2))) := gaussInt_lim.const_mul erfC
  have e1 : erfC * (√π / 2) = 1 := by
    unfold erfC
    have : √π ≠ 0 := by positivity
    field_simp
  rw [e1] at h1
  have h2 : Tendsto (fun x : ℝ => exp (-(x ^ 2))) atTop (𝓝 0) := by
    apply tendsto_exp_atBot.comp
    apply tendsto_neg_atTop_atBot.comp
    exact tendsto_pow_atTop two_ne_zero
  have h3 : Tendsto (fun x : ℝ => erfG (erfT x) * exp (-(x ^ 2))) atTop (𝓝 0) := by
    have hb : ∀ᶠ x : ℝ in atTop, ‖erfG (erfT x) * exp (-(x ^ 2))‖ ≤ 10 * exp (-(x ^ 2)) := by
      filter_upwards [eventually_ge_atTop 0] with x hx
      rw [norm_mul, Real.norm_eq_abs, Real.norm_eq_abs, abs_of_pos (exp_pos _)]
      apply mul_le_mul_of_nonneg_right _ (exp_pos _).le
      have h0 := (erfT_pos hx).le
      have h1 := erfT_le_one hx
      generalize erfT x = t at h0 h1
      have p2 : t ^ 2 ≤ 1 := pow_le_one₀ h0 h1
      have p3 : t ^ 3 ≤ 1 := pow_le_one₀ h0 h1
      have p4 : t ^ 4 ≤ 1 := pow_le_one₀ h0 h1
      have p5 : t ^ 5 ≤ 1 := pow_le_one₀ h0 h1
      have q2 : 0 ≤ t ^ 2 := by positivity
      have q3 : 0 ≤ t ^ 3 := by positivity
      have q4 : 0 ≤ t ^ 4 := by positivity
      have q5 : 0 ≤ t ^ 5 := by positivity
      rw [abs_le]
      unfold erfG
      constructor <;> linarith
    refine squeeze_zero_norm' hb ?_
    simpa using h2.const_mul 10
  have := ((tendsto_const_nhds (x := (1 : ℝ)) (f := atTop)).sub h3).sub h1
  rw [sub_zero, sub_self] at this
  exact this

/-- Behind the last zero of the derivative. -/
theorem erfE_tail {a x : ℝ} (h0 : 0 ≤ a) (ha : a ≤ x) (hR : ∀ s, a ≤ s → -(1 / 10 ^ 9) ≤ erfR s) :
    erfE a - 1 / 10 ^ 9 ≤ erfE x ∧ erfE x ≤ 1 / 10 ^ 9 := by
  refine ⟨(erfE_up h0 ha (le_refl x) (fun s hs _ => hR s hs)).1, ?_⟩
  have : ∀ᶠ b : ℝ in atTop, erfE x ≤ erfE b + 1 / 10 ^ 9 := by
    filter_upwards [eventually_ge_atTop x] with b hb
    exact (erfE_up h0 ha hb (fun s hs _ => hR s hs)).2
  have h := ge_of_tendsto (erfE_lim.add_const (1 / 10 ^ 9)) this
  simpa using h

end Nx
