import Verif.Lemmas.Dlt
import Mathlib.Analysis.Real.Sqrt
import Mathlib.Topology.MetricSpace.ProperSpace.Lemmas
import Mathlib.Topology.Order.Compact
import Mathlib.Topology.Instances.Real.Lemmas

/-!
# C62: homographies by direct linear transformation
-/

namespace Nx

variable {svd : List (Fin 9 → ℝ) → (Fin 9 → Fin 9 → ℝ) × List ℝ}

/-- For four or more correspondences `nx_homography_estimate_dlt` computes a matrix of norm one that
minimises the sum of the algebraic residuals over all matrices of norm one. -/
theorem c62_dlt (hs : SvdContract svd) (h : M3 ℝ) (corr : List (PMatch ℝ)) (hn : 4 ≤ corr.length) :
    ∃ h' s, estimateDlt svd h corr.length corr = .ok (h', s) ∧ frobSq h'.mat = 1 ∧
      ∀ A : Matrix (Fin 3) (Fin 3) ℝ, frobSq A = 1 → algError h'.mat corr ≤ algError A corr := by
  obtain ⟨_, hu, hm⟩ := hs (corr.flatMap constraintsFromCorr)
  refine ⟨mat9 ((svd (corr.flatMap constraintsFromCorr)).1 8),
    readSVal (svd (corr.flatMap constraintsFromCorr)).2 8, ?_, ?_, ?_⟩
  · simp only [estimateDlt]
    rw [if_neg (by omega), Int.toNat_natCast, dltRows_ok _ _ le_rfl, List.take_length]
    rfl
  · rw [← vec9_sq, vec9_mat9, hu]
  · intro A hA
    rw [← rows_error, ← rows_error, vec9_mat9]
    exact hm (vec9 A) (by rw [vec9_sq, hA])

/-- If a regular transformation takes every point to its correspondence and four of the points
are in general position, that transformation is found, up to a factor. -/
theorem c62_dlt_exact (hs : SvdContract svd) (h : M3 ℝ) (corr : List (PMatch ℝ)) (hn : 4 ≤ corr.length)
    (B : Matrix (Fin 3) (Fin 3) ℝ) (hB : ∀ c ∈ corr, Projects B c.x c.xp) (hd : B.det ≠ 0)
    (c : Fin 4 → PMatch ℝ) (hc : ∀ i, c i ∈ corr) (hg : General fun i => (c i).x) :
    ∃ (h' : M3 ℝ) (s : SVal ℝ) (k : ℝ), estimateDlt svd h corr.length corr = .ok (h', s) ∧ k ≠ 0 ∧ h'.mat = k • B ∧
      ∀ d ∈ corr, (transferFwd h' d.x).1 = some d.xp := by
  obtain ⟨h', s, he, hf, hmin⟩ := c62_dlt hs h corr hn
  have hB0 : B ≠ 0 := by
    rintro rfl
    rw [Matrix.det_zero] at hd
    exact hd rfl
  have hpos := frobSq_pos hB0
  -- the exact transformation, scaled to norm one, has error zero
  have hunit : frobSq ((Real.sqrt (frobSq B))⁻¹ • B) = 1 := by
    rw [frobSq_smul, inv_pow, Real.sq_sqrt hpos.le, inv_mul_cancel₀ hpos.ne']
  have hzero : algError ((Real.sqrt (frobSq B))⁻¹ • B) corr = 0 := by
    rw [algError_smul, algError_eq_zero_of B corr, mul_zero]
    intro d hd
    obtain ⟨t, _, e⟩ := hB d hd
    exact (residual_zero_iff B _ _).mpr ⟨t, e⟩
  have h0 : algError h'.mat corr = 0 := by
    have h1 := hmin _ hunit
    have h2 := algError_nonneg h'.mat corr
    rw [hzero] at h1
    exact le_antisymm h1 h2
  obtain ⟨k, hk⟩ := dependent_unique hg (fun i => hB _ (hc i)) hd fun i =>
    (residual_zero_iff _ _ _).mp (algError_zero _ _ h0 _ (hc i))
  have hk0 : k ≠ 0 := by
    rintro rfl
    rw [zero_smul] at hk
    rw [hk] at hf
    simp [frobSq] at hf
  refine ⟨h', s, k, he, hk0, hk, ?_⟩
  intro d hm
  rw [transferFwd_eq_some, hk]
  obtain ⟨t, ht, e⟩ := hB d hm
  exact ⟨k * t, mul_ne_zero hk0 ht, by rw [Matrix.smul_mulVec, e, smul_smul]⟩

/-- The returned value is a singular value if there are five or more correspondences. With four the matrix
has only eight singular values and the returned value is read from an uninitialised element. -/
theorem c62_dlt_value (hs : SvdContract svd) (h h' : M3 ℝ) (s : SVal ℝ) (corr : List (PMatch ℝ))
    (hr : estimateDlt svd h corr.length corr = .ok (h', s)) :
    (5 ≤ corr.length → ∃ v ∈ (svd (corr.flatMap constraintsFromCorr)).2, s = .val v) ∧
      (corr.length = 4 → s = .indet) := by
  obtain ⟨hl, _, _⟩ := hs (corr.flatMap constraintsFromCorr)
  rw [rows_length] at hl
  constructor
  · intro hn
    simp only [estimateDlt] at hr
    rw [if_neg (by omega), Int.toNat_natCast, dltRows_ok _ _ le_rfl, List.take_length] at hr
    have h8 : 8 < (svd (corr.flatMap constraintsFromCorr)).2.length := by omega
    simp only [Res.ok_bind, Res.pure_eq, Res.ok.injEq, svdSolve, Prod.mk.injEq, readSVal, List.getElem?_eq_getElem h8] at hr
    exact ⟨_, List.getElem_mem h8, hr.2.symm⟩
  · intro hn
    simp only [estimateDlt] at hr
    rw [if_neg (by omega), Int.toNat_natCast, dltRows_ok _ _ le_rfl, List.take_length] at hr
    have : (svd (corr.flatMap constraintsFromCorr)).2[8]? = none := List.getElem?_eq_none (by omega)
    simp only [Res.ok_bind, Res.pure_eq, Res.ok.injEq, svdSolve, Prod.mk.injEq, readSVal, this] at hr
    exact hr.2.symm

/-- With less than four correspondences nothing is computed. -/
theorem c62_dlt_few (h : M3 ℝ) (n : Int) (corr : List (PMatch ℝ)) (hn : n < 4) :
    estimateDlt svd h n corr = .ok (h, .dblMax) := by
  simp only [estimateDlt, if_pos hn]

/-- `nx_homography_estimate_dlt_inliers` is the estimation from the correspondences that are marked as inliers. -/
theorem c62_dlt_inliers (h : M3 ℝ) (n : Nat) (corr : List (PMatch ℝ)) (hn : n ≤ corr.length) :
    estimateDltInliers svd h n corr
      = estimateDlt svd h ((corr.take n).filter fun c => c.inlier).length ((corr.take n).filter fun c => c.inlier) := by
  simp only [estimateDltInliers, estimateDlt, Int.toNat_natCast, countInliers_ok n corr 0 hn, Res.ok_bind, zero_add,
    dltInlierRows_ok n corr hn, dltRows_ok _ _ (le_refl ((corr.take n).filter fun c => c.inlier).length),
    List.take_length]
  by_cases h4 : ((corr.take n).filter fun c => c.inlier).length < 4
  · rw [if_pos h4, if_pos (by omega)]
  · rw [if_neg h4, if_neg (by omega)]

/-- The contract of the decomposition can be met. -/
example : ∃ svd, SvdContract svd := by
  have key : ∀ cols : List (Fin 9 → ℝ), ∃ u : Fin 9 → ℝ, ∑ k, u k ^ 2 = 1 ∧ ∀ v : Fin 9 → ℝ, ∑ k, v k ^ 2 = 1 →
      (cols.map fun c => (∑ k, c k * u k) ^ 2).sum ≤ (cols.map fun c => (∑ k, c k * v k) ^ 2).sum := by
    intro cols
    have hcl : IsClosed {v : Fin 9 → ℝ | ∑ k, v k ^ 2 = 1} := by
      refine isClosed_eq ?_ continuous_const
      fun_prop
    have hb : Bornology.IsBounded {v : Fin 9 → ℝ | ∑ k, v k ^ 2 = 1} := by
      refine (Metric.isBounded_closedBall (x := (0 : Fin 9 → ℝ)) (r := 1)).subset ?_
      intro v hv
      rw [Metric.mem_closedBall, dist_pi_le_iff zero_le_one]
      intro i
      have h1 : v i ^ 2 ≤ ∑ k, v k ^ 2 := Finset.single_le_sum (fun k _ => sq_nonneg (v k)) (Finset.mem_univ i)
      have hv' : ∑ k, v k ^ 2 = 1 := hv
      rw [hv'] at h1
      rw [Real.dist_eq, Pi.zero_apply, sub_zero]
      exact abs_le_one_iff_mul_self_le_one.mpr (by nlinarith)
    have hc : IsCompact {v : Fin 9 → ℝ | ∑ k, v k ^ 2 = 1} := Metric.isCompact_of_isClosed_isBounded hcl hb
    have hne : {v : Fin 9 → ℝ | ∑ k, v k ^ 2 = 1}.Nonempty :=
      ⟨fun i => if i = 0 then 1 else 0, by simp [Fin.sum_univ_succ]⟩
    have hf : Continuous fun v : Fin 9 → ℝ => (cols.map fun c => (∑ k, c k * v k) ^ 2).sum := by
      induction cols with
      | nil => simpa using continuous_const
      | cons c cs ih =>
        simp only [List.map_cons, List.sum_cons]
        exact Continuous.add (by fun_prop) ih
    obtain ⟨u, hu, hmin⟩ := hc.exists_isMinOn hne hf.continuousOn
    exact ⟨u, hu, fun v hv => hmin hv⟩
  choose u hu1 hu2 using key
  exact ⟨fun cols => (fun _ => u cols, List.replicate (min 9 cols.length) 0), fun cols =>
    ⟨by simp, hu1 cols, hu2 cols⟩⟩

/-- The hypotheses on the correspondences are met by the five points of a translation. -/
example :
    let B : Matrix (Fin 3) (Fin 3) ℝ := transl2 2 3
    let c : Fin 5 → PMatch ℝ := fun i =>
      let p : ℝ × ℝ := ![(0, 0), (1, 0), (1, 1), (0, 1), (5, 7)] i
      ⟨p, (p.1 + 2, p.2 + 3), 0, 1, 1, 0, 0, false⟩
    (∀ i, Projects B (c i).x (c i).xp) ∧ B.det ≠ 0 ∧ General fun i : Fin 4 => (c i.castSucc).x := by
  refine ⟨?_, ?_, ?_⟩
  · intro i
    refine ⟨1, one_ne_zero, ?_⟩
    ext r
    fin_cases r <;> simp [transl2, hom2, Matrix.mulVec, dotProduct, Fin.sum_univ_succ]
  · simp [transl2, Matrix.det_fin_three]
  · simp [General, area2]

end Nx
