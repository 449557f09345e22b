import Verif.Model.Erf
import Verif.Lemmas.ErfValues

/-!
# C122: the error function

The error function is `2 / √π ∫₀ˣ exp (-s²) ds`.
-/

namespace Nx

open Real Filter Topology

/-- The error function. -/
noncomputable def erf (x : ℝ) : ℝ := 2 / √π * ∫ s in (0 : ℝ)..x, exp (-(s ^ 2))

theorem erf_odd (x : ℝ) : erf (-x) = -erf x := by
  have := gaussInt_odd x
  unfold gaussInt at this
  unfold erf
  rw [this]
  ring

theorem nxErf_pos {x : ℝ} (h : 0 ≤ x) : nxErf x = 1 - erfG (erfT x) * exp (-(x ^ 2)) := by
  unfold nxErf erfG erfT erfP
  simp only [not_lt.mpr h, if_false, abs_of_nonneg h]
  have : -x * x = -(x ^ 2) := by ring
  rw [this]
  ring

theorem nxErf_odd {x : ℝ} (h : x ≠ 0) : nxErf (-x) = -nxErf x := by
  unfold nxErf
  simp only [abs_neg]
  rcases lt_or_gt_of_ne h with h' | h'
  · rw [if_neg (by linarith), if_pos h']
    ring
  · rw [if_pos (by linarith), if_neg (by linarith)]
    ring

theorem erfE_eq {x : ℝ} (h : 0 ≤ x) : nxErf x - erf x = erfE x := by
  rw [nxErf_pos h]
  rfl

theorem erfT_between {lo hi : ℚ} (h1 : 0 < lo) (h2 : 0 < hi) (h3 : hi ≤ 1) {s : ℝ} (ha : (erfXQ hi : ℝ) ≤ s) (hb : s ≤ erfXQ lo) :
    (lo : ℝ) ≤ erfT s ∧ erfT s ≤ hi := by
  have hx : (0 : ℝ) ≤ (erfXQ hi : ℝ) := by
    have : (0 : ℚ) ≤ erfXQ hi := by
      unfold erfXQ
      apply div_nonneg <;> [linarith; positivity]
    exact_mod_cast this
  constructor
  · rw [← erfT_X h1]
    exact erfT_anti (hx.trans ha) hb
  · rw [← erfT_X h2]
    exact erfT_anti hx ha

theorem erfR_ge {s : ℝ} (h : erfP * (1.1283791670956 - 1 / 10 ^ 9) ≤ erfQ (erfT s)) : -(1 / 10 ^ 9) ≤ erfR s := by
  have : 1.1283791670956 - 1 / 10 ^ 9 ≤ erfQ (erfT s) / erfP := by
    rw [le_div_iff₀ erfP_pos, mul_comm]
    exact h
  have c := erfC_lt
  unfold erfR
  linarith

theorem erfR_le {s : ℝ} (h : erfQ (erfT s) ≤ erfP * (1.1283791670955 + 1 / 10 ^ 9)) : erfR s ≤ 1 / 10 ^ 9 := by
  have : erfQ (erfT s) / erfP ≤ 1.1283791670955 + 1 / 10 ^ 9 := by
    rw [div_le_iff₀ erfP_pos, mul_comm]
    exact h
  have c := erfC_gt
  unfold erfR
  linarith

theorem erfE_zero : erfE 0 = 1 / 10 ^ 9 := by
  unfold erfE erfT erfG
  rw [gaussInt_zero]
  norm_num

theorem erfE_small {x : ℝ} (h : 0 ≤ x) : |erfE x| ≤ 1.5 / 10 ^ 7 := by
  obtain ⟨p1, q1, l1, u1⟩ := erfE_ok erfOk_1
  obtain ⟨p2, q2, l2, u2⟩ := erfE_ok erfOk_2
  obtain ⟨p3, q3, l3, u3⟩ := erfE_ok erfOk_3
  obtain ⟨p4, q4, l4, u4⟩ := erfE_ok erfOk_4
  obtain ⟨p5, q5, l5, u5⟩ := erfE_ok erfOk_5
  obtain ⟨p6, q6, l6, u6⟩ := erfE_ok erfOk_6
  have z := erfE_zero
  have nn : ∀ t : ℚ, 0 < t → t ≤ 1 → (0 : ℝ) ≤ (erfXQ t : ℝ) := by
    intro t h1 h2
    have : (0 : ℚ) ≤ erfXQ t := by
      unfold erfXQ
      apply div_nonneg <;> [linarith; positivity]
    exact_mod_cast this
  have x0 : (erfXQ 1 : ℝ) = 0 := by simp [erfXQ]
  rw [abs_le]
  rcases le_total x (erfXQ (98542782 / 100000000)) with k1 | k1
  · have := erfE_up (le_refl 0) h k1 (fun s hs hs' => by
      obtain ⟨g1, g2⟩ := erfT_between p1 one_pos (le_refl 1) (by rw [x0]; exact hs) hs'
      exact erfR_ge (erfQ_0 (le_trans (by norm_num) g1) (le_trans g2 (by norm_num))))
    constructor <;> linarith [this.1, this.2]
  rcases le_total x (erfXQ (93211443 / 100000000)) with k2 | k2
  · have := erfE_down (nn _ p1 q1) k1 k2 (fun s hs hs' => by
      obtain ⟨g1, g2⟩ := erfT_between p2 p1 q1 hs hs'
      exact erfR_le (erfQ_1 (le_trans (by norm_num) g1) (le_trans g2 (by norm_num))))
    constructor <;> linarith [this.1, this.2]
  rcases le_total x (erfXQ (85742038 / 100000000)) with k3 | k3
  · have := erfE_up (nn _ p2 q2) k2 k3 (fun s hs hs' => by
      obtain ⟨g1, g2⟩ := erfT_between p3 p2 q2 hs hs'
      exact erfR_ge (erfQ_2 (le_trans (by norm_num) g1) (le_trans g2 (by norm_num))))
    constructor <;> linarith [this.1, this.2]
  rcases le_total x (erfXQ (77313414 / 100000000)) with k4 | k4
  · have := erfE_down (nn _ p3 q3) k3 k4 (fun s hs hs' => by
      obtain ⟨g1, g2⟩ := erfT_between p4 p3 q3 hs hs'
      exact erfR_le (erfQ_3 (le_trans (by norm_num) g1) (le_trans g2 (by norm_num))))
    constructor <;> linarith [this.1, this.2]
  rcases le_total x (erfXQ (68551721 / 100000000)) with k5 | k5
  · have := erfE_up (nn _ p4 q4) k4 k5 (fun s hs hs' => by
      obtain ⟨g1, g2⟩ := erfT_between p5 p4 q4 hs hs'
      exact erfR_ge (erfQ_4 (le_trans (by norm_num) g1) (le_trans g2 (by norm_num))))
    constructor <;> linarith [this.1, this.2]
  rcases le_total x (erfXQ (58896482 / 100000000)) with k6 | k6
  · have := erfE_down (nn _ p5 q5) k5 k6 (fun s hs hs' => by
      obtain ⟨g1, g2⟩ := erfT_between p6 p5 q5 hs hs'
      exact erfR_le (erfQ_5 (le_trans (by norm_num) g1) (le_trans g2 (by norm_num))))
    constructor <;> linarith [this.1, this.2]
  · have := erfE_tail (nn _ p6 q6) k6 (fun s hs => by
      have hs0 := (nn _ p6 q6).trans hs
      have g1 := (erfT_pos hs0).le
      have g2 : erfT s ≤ ((58896482 / 100000000 : ℚ) : ℝ) := by
        rw [← erfT_X p6]
        exact erfT_anti (nn _ p6 q6) hs
      exact erfR_ge (erfQ_6 g1 (le_trans g2 (by norm_num))))
    constructor <;> linarith [this.1, this.2]

/-- **C122, accuracy.** For every `x` the result differs from the error function by at most `1.5 · 10⁻⁷`, which is what Abramowitz and Stegun
promise for formula 7.1.26. -/
theorem c122_accuracy (x : ℝ) : |nxErf x - erf x| ≤ 1.5 / 10 ^ 7 := by
  rcases le_or_gt 0 x with h | h
  · rw [erfE_eq h]
    exact erfE_small h
  · have h' : 0 ≤ -x := by linarith
    have := erfE_small h'
    rw [← erfE_eq h', erf_odd, nxErf_odd h.ne] at this
    rw [← abs_neg]
    have e : -(nxErf x - erf x) = -nxErf x - -erf x := by ring
    rw [e]
    exact this

theorem erfG_strictMono : StrictMonoOn erfG (Set.Icc 0 1) := by
  apply strictMonoOn_of_deriv_pos (convex_Icc 0 1)
  · exact fun t _ => (erfG_deriv t).continuousAt.continuousWithinAt
  · intro t ht
    rw [interior_Icc] at ht
    rw [(erfG_deriv t).deriv]
    have e : 5 * 1.061405429 * t ^ 4 - 4 * 1.453152027 * t ^ 3 + 3 * 1.421413741 * t ^ 2 - 2 * 0.284496736 * t + 0.254829592 =
        0.254829592 * (1 - t) ^ 4 + 4 * 0.112581224 * (t * (1 - t) ^ 3) + 6 * 0.6810397265 * (t ^ 2 * (1 - t) ^ 2) +
          4 * 0.5070530725 * (t ^ 3 * (1 - t)) + 3.44449638 * t ^ 4 := by ring
    rw [e]
    have h1 : 0 < t := ht.1
    have h2 : 0 < 1 - t := by linarith [ht.2]
    positivity

theorem erfT_strictAnti {x y : ℝ} (h : 0 ≤ x) (hxy : x < y) : erfT y < erfT x := by
  unfold erfT
  apply one_div_lt_one_div_of_lt (erfDen_pos h)
  have := mul_lt_mul_of_pos_left hxy erfP_pos
  linarith

theorem erfG_range {x : ℝ} (h : 0 ≤ x) : 0 < erfG (erfT x) ∧ erfG (erfT x) < 1 := by
  have h1 := erfT_pos h
  have h2 := erfT_le_one h
  constructor
  · have := erfG_strictMono (a := 0) (b := erfT x) ⟨le_refl 0, zero_le_one⟩ ⟨h1.le, h2⟩ h1
    have z : erfG 0 = 0 := by norm_num [erfG]
    rwa [z] at this
  · have := erfG_strictMono.monotoneOn (a := erfT x) (b := 1) ⟨h1.le, h2⟩ ⟨zero_le_one, le_refl 1⟩ h2
    have z : erfG 1 < 1 := by norm_num [erfG]
    exact lt_of_le_of_lt this z

theorem nxErf_unit {x : ℝ} (h : 0 ≤ x) : 0 < nxErf x ∧ nxErf x < 1 := by
  rw [nxErf_pos h]
  obtain ⟨g0, g1⟩ := erfG_range h
  have e0 := exp_pos (-(x ^ 2))
  have e1 : exp (-(x ^ 2)) ≤ 1 := by
    rw [exp_le_one_iff]
    have := sq_nonneg x
    linarith
  have p0 := mul_pos g0 e0
  have p1 : erfG (erfT x) * exp (-(x ^ 2)) < 1 := lt_of_le_of_lt (mul_le_of_le_one_right g0.le e1) g1
  constructor <;> linarith

/-- **C122, range.** The result is strictly between `-1` and `1`. -/
theorem c122_range (x : ℝ) : |nxErf x| < 1 := by
  rcases le_or_gt 0 x with h | h
  · obtain ⟨h1, h2⟩ := nxErf_unit h
    rw [abs_of_pos h1]
    exact h2
  · obtain ⟨h1, h2⟩ := nxErf_unit (show 0 ≤ -x by linarith)
    rw [nxErf_odd h.ne] at h1 h2
    rw [← abs_neg, abs_of_pos h1]
    exact h2

theorem nxErf_mono_pos {x y : ℝ} (h : 0 ≤ x) (hxy : x < y) : nxErf x < nxErf y := by
  have hy : 0 ≤ y := h.trans hxy.le
  rw [nxErf_pos h, nxErf_pos hy]
  have g := erfG_strictMono ⟨(erfT_pos hy).le, erfT_le_one hy⟩ ⟨(erfT_pos h).le, erfT_le_one h⟩ (erfT_strictAnti h hxy)
  have e : exp (-(y ^ 2)) ≤ exp (-(x ^ 2)) := by
    rw [exp_le_exp]
    have := pow_le_pow_left₀ h hxy.le 2
    linarith
  have a1 := mul_le_mul_of_nonneg_left e (erfG_range hy).1.le
  have a2 := mul_lt_mul_of_pos_right g (exp_pos (-(x ^ 2)))
  linarith

/-- **C122, monotone.** The result grows strictly with `x`, also across `0`. -/
theorem c122_strictMono : StrictMono nxErf := by
  intro x y hxy
  rcases le_or_gt 0 x with h | h
  · exact nxErf_mono_pos h hxy
  · rcases le_or_gt 0 y with h' | h'
    · have h1 := (nxErf_unit (show 0 ≤ -x by linarith)).1
      have h2 := (nxErf_unit h').1
      rw [nxErf_odd h.ne] at h1
      linarith
    · have := nxErf_mono_pos (show 0 ≤ -y by linarith) (show -y < -x by linarith)
      rw [nxErf_odd h.ne, nxErf_odd h'.ne] at this
      linarith

/-- **C122, far away.** The results tend to `1` and `-1`. -/
theorem c122_limits : Tendsto nxErf atTop (𝓝 1) ∧ Tendsto nxErf atBot (𝓝 (-1)) := by
  have h : Tendsto nxErf atTop (𝓝 1) := by
    have h1 : Tendsto (fun x : ℝ => erfC * gaussInt x) atTop (𝓝 (erfC * (√π / 2))) := gaussInt_lim.const_mul erfC
    have e1 : erfC * (√π / 2) = 1 := by
      unfold erfC
      have : √π ≠ 0 := by positivity
      field_simp
    rw [e1] at h1
    have h2 := erfE_lim.add h1
    rw [zero_add] at h2
    refine h2.congr' ?_
    filter_upwards [eventually_ge_atTop 0] with x hx
    rw [nxErf_pos hx, erfE]
    ring
  refine ⟨h, ?_⟩
  have h3 := (h.comp tendsto_neg_atBot_atTop).neg
  refine h3.congr' ?_
  filter_upwards [eventually_lt_atBot 0] with x hx
  simp only [Function.comp]
  rw [nxErf_odd hx.ne]
  ring

/-- **C122, odd.** *Partial*: not at `0`, `c122_odd_false`. -/
theorem c122_odd_partial {x : ℝ} (h : x ≠ 0) : nxErf (-x) = -nxErf x := nxErf_odd h

example : (2 : ℝ) ≠ 0 := by norm_num

/-- **C122, finding.** At `0` the result is `10⁻⁹`, so the function is neither odd nor zero there, and it jumps. -/
theorem c122_odd_false : nxErf 0 = 1 / 10 ^ 9 ∧ nxErf (-0) ≠ -nxErf 0 ∧ ¬ ContinuousAt nxErf 0 := by
  have h0 : nxErf 0 = 1 / 10 ^ 9 := by
    rw [nxErf_pos (le_refl 0)]
    norm_num [erfG, erfT]
  refine ⟨h0, ?_, ?_⟩
  · rw [neg_zero, h0]
    norm_num
  · intro hc
    have hc' := (Metric.continuousAt_iff.mp hc) (1 / 10 ^ 9) (by norm_num)
    obtain ⟨δ, hδ, hd⟩ := hc'
    have hx : dist (-(δ / 2)) 0 < δ := by
      rw [Real.dist_eq, sub_zero, abs_neg, abs_of_pos (by linarith)]
      linarith
    have := hd hx
    have hp := (nxErf_unit (show 0 ≤ δ / 2 by linarith)).1
    rw [nxErf_odd (by linarith), h0, Real.dist_eq, abs_lt] at this
    linarith [this.1]

end Nx
