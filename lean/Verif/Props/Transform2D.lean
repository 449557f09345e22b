import Mathlib.Tactic.NormNum
import Mathlib.Analysis.SpecialFunctions.Trigonometric.Basic
import Verif.Lemmas.Transform2D

/-!
# C60: plane transformations
-/

namespace Nx

section
variable {K : Type} [Field K]

/-- `nx_transform_2d_fill_similarity` composes as documented: translation, rotation, scale,
translation. -/
theorem c60_similarity (cos sin : K → K) (dxPost dyPost lambda theta dxPre dyPre : K) :
    (fillSimilarity cos sin dxPost dyPost lambda theta dxPre dyPre).mat
      = transl2 dxPost dyPost * scale2 lambda lambda * rot2 (cos theta) (sin theta) * transl2 dxPre dyPre := by
  ext r c
  fin_cases r <;> fin_cases c <;>
    simp [fillSimilarity, M3.mat, transl2, scale2, rot2, Matrix.mul_apply, Fin.sum_univ_succ] <;> ring

/-- `nx_transform_2d_fill_affine` composes as documented, for tilt angles of nonzero cosine. -/
theorem c60_affine (cos sin : K → K) (dxPost dyPost lambda psi theta phi dxPre dyPre : K) (_h : cos theta ≠ 0) :
    (fillAffine cos sin dxPost dyPost lambda psi theta phi dxPre dyPre).mat
      = transl2 dxPost dyPost * scale2 lambda lambda * rot2 (cos psi) (sin psi) * scale2 (cos theta)⁻¹ 1
        * rot2 (cos phi) (sin phi) * transl2 dxPre dyPre := by
  ext r c
  fin_cases r <;> fin_cases c <;>
    simp [fillAffine, M3.mat, transl2, scale2, rot2, Matrix.mul_apply, Fin.sum_univ_succ] <;> ring

/-- With tilt zero the affine transformation is the similarity with the sum of the angles. -/
theorem c60_affine_no_tilt (dxPost dyPost lambda psi phi dxPre dyPre : ℝ) :
    fillAffine Real.cos Real.sin dxPost dyPost lambda psi 0 phi dxPre dyPre
      = fillSimilarity Real.cos Real.sin dxPost dyPost lambda (psi + phi) dxPre dyPre := by
  simp only [fillAffine, fillSimilarity, Real.cos_zero, Real.cos_add, Real.sin_add, M3.mk.injEq, true_and, and_true]
  refine ⟨?_, ?_, ?_, ?_, ?_, ?_⟩ <;> ring

example : (fillSimilarity (fun x : ℚ => if x = 0 then 3 / 5 else 0) (fun x => if x = 0 then 4 / 5 else 0) 1 2 5 0 3 4)
    = ⟨3, 4, 0, -4, 3, 0, -6, 26, 1⟩ := by
  decide +kernel

/-- If no three corners are on a line and the returned value is nonzero, the computed
transformation takes the corners, in their order, to the corners of the unit square. -/
theorem c60_perspective (x : A8 K) (hg : General x.pt) (hd : (estimateUnit x).2 ≠ 0) (i : Fin 4) :
    Projects (estimateUnit x).1.mat (x.pt i) (unitCorner i) := by
  refine ⟨areaProd x.pt i / (estimateUnit x).2, div_ne_zero (areaProd_ne hg i) hd, ?_⟩
  have h := unitNum_mulVec x i
  rw [estimateUnit_mat x hd, Matrix.smul_mulVec] at h
  rw [div_eq_inv_mul, ← smul_smul, ← h, smul_smul, inv_mul_cancel₀ hd, one_smul]

/-- It is the only one with that property, up to a factor. -/
theorem c60_perspective_unique (x : A8 K) (hg : General x.pt) (hd : (estimateUnit x).2 ≠ 0)
    (B : Matrix (Fin 3) (Fin 3) K) (hB : ∀ i, Projects B (x.pt i) (unitCorner i)) :
    ∃ k : K, k ≠ 0 ∧ B = k • (estimateUnit x).1.mat := by
  refine projects_unique (c60_perspective x hg hd) hB ?_
  obtain ⟨s, hs, h0⟩ := c60_perspective x hg hd 0
  obtain ⟨t, ht, h1⟩ := c60_perspective x hg hd 1
  obtain ⟨u, hu, h2⟩ := c60_perspective x hg hd 2
  have h := mulVec_three_det _ _ _ _ _ _ _ _ _ _ h0 h1 h2
  intro h0
  rw [h0, zero_mul] at h
  have : area2 (unitCorner 0 : K × K) (unitCorner 1) (unitCorner 2) = 1 := by simp [area2, unitCorner]
  rw [this, mul_one] at h
  exact mul_ne_zero (mul_ne_zero hs ht) hu h.symm

/-- If the returned value is nonzero, the matrix is regular exactly if no three of the corners are
on a line: the returned value does not detect this. -/
theorem c60_perspective_regular (x : A8 K) (hd : (estimateUnit x).2 ≠ 0) :
    (estimateUnit x).1.mat.det ≠ 0 ↔ General x.pt := by
  have hv : ∀ i, (estimateUnit x).1.mat.mulVec (hom2 (x.pt i))
      = (areaProd x.pt i / (estimateUnit x).2) • hom2 (unitCorner i) := by
    intro i
    have h := unitNum_mulVec x i
    rw [estimateUnit_mat x hd, Matrix.smul_mulVec] at h
    rw [div_eq_inv_mul, ← smul_smul, ← h, smul_smul, inv_mul_cancel₀ hd, one_smul]
  constructor
  · intro hdet
    have hz : ∀ i, areaProd x.pt i ≠ 0 := by
      intro i h0
      have h := hv i
      rw [h0, zero_div, zero_smul] at h
      exact hdet (Matrix.exists_mulVec_eq_zero_iff.mp ⟨_, hom2_ne_zero _, h⟩)
    have h0 := hz 0
    have h1 := hz 1
    simp only [areaProd, Matrix.cons_val_zero, Matrix.cons_val_one, ne_eq, mul_eq_zero, not_or] at h0 h1
    exact ⟨h1.1.1, h0.1.1, h0.1.2, h0.2⟩
  · intro hg h0
    have h := mulVec_three_det _ _ _ _ _ _ _ _ _ _ (hv 0) (hv 1) (hv 2)
    rw [h0, zero_mul] at h
    have : area2 (unitCorner 0 : K × K) (unitCorner 1) (unitCorner 2) = 1 := by simp [area2, unitCorner]
    rw [this, mul_one] at h
    exact mul_ne_zero (mul_ne_zero (div_ne_zero (areaProd_ne hg 0) hd) (div_ne_zero (areaProd_ne hg 1) hd))
      (div_ne_zero (areaProd_ne hg 2) hd) h.symm

/-- What the returned value says for corners in general position: there is a transformation that
takes them to the unit square, and the value is zero exactly if any such transformation
takes the origin to infinity. -/
theorem c60_perspective_det (x : A8 K) (hg : General x.pt) :
    (∃ A : Matrix (Fin 3) (Fin 3) K, ∀ i, Projects A (x.pt i) (unitCorner i)) ∧
    ∀ A : Matrix (Fin 3) (Fin 3) K, (∀ i, Projects A (x.pt i) (unitCorner i)) →
      ((estimateUnit x).2 = 0 ↔ A.mulVec (hom2 (0, 0)) 2 = 0) := by
  have hN : ∀ i, Projects (unitNum x).mat (x.pt i) (unitCorner i) :=
    fun i => ⟨areaProd x.pt i, areaProd_ne hg i, unitNum_mulVec x i⟩
  refine ⟨⟨_, hN⟩, ?_⟩
  intro A hA
  have hreg : (unitNum x).mat.det ≠ 0 := by
    intro h0
    have h := mulVec_three_det _ _ _ _ _ _ _ _ _ _ (unitNum_mulVec x 0) (unitNum_mulVec x 1) (unitNum_mulVec x 2)
    rw [h0, zero_mul] at h
    have : area2 (unitCorner 0 : K × K) (unitCorner 1) (unitCorner 2) = 1 := by simp [area2, unitCorner]
    rw [this, mul_one] at h
    exact mul_ne_zero (mul_ne_zero (areaProd_ne hg 0) (areaProd_ne hg 1)) (areaProd_ne hg 2) h.symm
  obtain ⟨k, hk, rfl⟩ := projects_unique hN hA hreg
  rw [Matrix.smul_mulVec, mulVec_hom2]
  simp only [mul_zero, add_zero, zero_add, Matrix.cons_val, Pi.smul_apply, smul_eq_mul, mul_eq_zero, hk, false_or]
  exact Iff.rfl

end

/-- A trapezoid whose sides meet at the origin. -/
def trapezoid : A8 ℚ := ⟨-1, 1, 1, 1, 2, 2, -2, 2⟩

/-- The returned value is zero for a trapezoid with corners in general position: it does not tell
degenerate corners from others. -/
theorem c60_perspective_incomplete : General trapezoid.pt ∧ (estimateUnit trapezoid).2 = 0 := by
  constructor
  · simp [General, trapezoid, A8.pt, area2]
    norm_num
  · decide +kernel

/-- The returned value is nonzero for four corners of which three are on a line; the matrix is singular then. -/
theorem c60_perspective_degenerate :
    let x : A8 ℚ := ⟨1, 1, 3, 1, 2, 5, 2, 1⟩
    ¬ General x.pt ∧ (estimateUnit x).2 ≠ 0 ∧ (estimateUnit x).1.mat.det = 0 := by
  have h2 : (estimateUnit (⟨1, 1, 3, 1, 2, 5, 2, 1⟩ : A8 ℚ)).2 ≠ 0 := by decide +kernel
  have h1 : ¬ General (⟨1, 1, 3, 1, 2, 5, 2, 1⟩ : A8 ℚ).pt := by
    simp [General, A8.pt, area2]
  refine ⟨h1, h2, ?_⟩
  by_contra h
  exact h1 ((c60_perspective_regular _ h2).mp h)

/-- The hypotheses are met by corners in general position. -/
example : General (⟨1, 1, 4, 2, 5, 6, 0, 4⟩ : A8 ℚ).pt ∧ (estimateUnit (⟨1, 1, 4, 2, 5, 6, 0, 4⟩ : A8 ℚ)).2 ≠ 0 := by
  constructor
  · simp [General, A8.pt, area2]
    norm_num
  · decide +kernel

end Nx
