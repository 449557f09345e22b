import Mathlib.Analysis.InnerProductSpace.Spectrum
import Mathlib.Analysis.InnerProductSpace.Adjoint
import Mathlib.Analysis.InnerProductSpace.Positive
import Verif.Spec.Epipolar

/-!
# Existence of the singular value decomposition of 3×3 matrices
-/

namespace Nx

theorem exists_svd3 (A : Matrix (Fin 3) (Fin 3) ℝ) : ∃ U Vt S, IsSvd3 A U Vt S := by
  let T : EuclideanSpace ℝ (Fin 3) →ₗ[ℝ] EuclideanSpace ℝ (Fin 3) := Matrix.toEuclideanLin A
  have hpos := LinearMap.isPositive_adjoint_comp_self T
  have hsym := hpos.isSymmetric
  have hn : Module.finrank ℝ (EuclideanSpace ℝ (Fin 3)) = 3 := by simp
  let v := hsym.eigenvectorBasis hn
  let lam := hsym.eigenvalues hn
  have hlam : ∀ i, 0 ≤ lam i := fun i => hpos.nonneg_eigenvalues hn i
  have hw : ∀ i j, inner ℝ (T (v i)) (T (v j)) = if i = j then lam i else 0 := by
    intro i j
    rw [← LinearMap.adjoint_inner_left, ← LinearMap.comp_apply]
    have : (LinearMap.adjoint T ∘ₗ T) (v i) = (lam i : ℝ) • v i := hsym.apply_eigenvectorBasis hn i
    rw [this, inner_smul_left, orthonormal_iff_ite.mp v.orthonormal i j]
    simp
  let s : Set (Fin 3) := {i | lam i ≠ 0}
  let w : Fin 3 → EuclideanSpace ℝ (Fin 3) := fun i => (Real.sqrt (lam i))⁻¹ • T (v i)
  have hort : Orthonormal ℝ (s.domRestrict w) := by
    rw [orthonormal_iff_ite]
    rintro ⟨i, hi⟩ ⟨j, hj⟩
    have hi' : lam i ≠ 0 := hi
    have hip : 0 < lam i := lt_of_le_of_ne (hlam i) (Ne.symm hi')
    show inner ℝ ((Real.sqrt (lam i))⁻¹ • T (v i)) ((Real.sqrt (lam j))⁻¹ • T (v j)) = _
    simp only [inner_smul_left, inner_smul_right, hw, Subtype.mk.injEq]
    by_cases hij : i = j
    · subst hij
      simp only [if_true, conj_trivial]
      have h1 := Real.mul_self_sqrt (hlam i)
      have h2 := (Real.sqrt_pos.mpr hip).ne'
      field_simp
      rw [sq, h1]
    · simp [hij]
  obtain ⟨u, hu⟩ := hort.exists_orthonormalBasis_extension_of_card_eq (by simp [hn])
  have hT : ∀ i, T (v i) = Real.sqrt (lam i) • u i := by
    intro i
    by_cases hi : lam i = 0
    · have := hw i i
      rw [if_pos rfl, hi, real_inner_self_eq_norm_sq] at this
      have h0 : T (v i) = 0 := by
        rw [← norm_eq_zero]
        exact pow_eq_zero_iff two_ne_zero |>.mp this
      rw [h0, hi]
      simp
    · rw [hu i hi]
      have hip : 0 < lam i := lt_of_le_of_ne (hlam i) (Ne.symm hi)
      simp only [w, smul_smul]
      rw [mul_inv_cancel₀ (Real.sqrt_pos.mpr hip).ne', one_smul]
  let M : (OrthonormalBasis (Fin 3) ℝ (EuclideanSpace ℝ (Fin 3))) → Matrix (Fin 3) (Fin 3) ℝ := fun b =>
    Matrix.of fun r c => b c r
  have hM : ∀ b, (M b).transpose * M b = 1 := by
    intro b
    ext i j
    have := orthonormal_iff_ite.mp b.orthonormal j i
    rw [PiLp.inner_apply] at this
    simp only [Matrix.mul_apply, Matrix.transpose_apply, M, Matrix.of_apply, Matrix.one_apply]
    simp at this
    rw [this]
    simp [eq_comm]
  refine ⟨M u, (M v).transpose, fun i => Real.sqrt (lam i), mul_eq_one_comm.mp (hM u), ?_, Real.sqrt_nonneg _,
    Real.sqrt_le_sqrt (hsym.eigenvalues_antitone hn (by decide)),
    Real.sqrt_le_sqrt (hsym.eigenvalues_antitone hn (by decide)), ?_⟩
  · rw [Matrix.transpose_transpose]
    exact hM v
  · have key : A * M v = M u * Matrix.diagonal fun i => Real.sqrt (lam i) := by
      ext r c
      have := congrArg (fun x : EuclideanSpace ℝ (Fin 3) => x r) (hT c)
      simp [T, Matrix.toEuclideanLin, Matrix.mulVec, dotProduct] at this
      rw [Matrix.mul_diagonal, Matrix.mul_apply]
      simp only [M, Matrix.of_apply]
      rw [this, mul_comm]
    rw [← key, Matrix.mul_assoc, mul_eq_one_comm.mp (hM v), Matrix.mul_one]

/-- The contract of the decomposition of 3×3 matrices can be met. -/
theorem exists_svd3_contract : ∃ svd3, Svd3Contract svd3 := by
  have key : ∀ A : M3 ℝ, ∃ r : M3 ℝ × V3 ℝ × M3 ℝ, IsSvd3 A.mat r.1.mat r.2.2.mat r.2.1.vec := by
    intro A
    obtain ⟨U, Vt, S, h⟩ := exists_svd3 A.mat
    have e : ∀ M : Matrix (Fin 3) (Fin 3) ℝ, (⟨M 0 0, M 1 0, M 2 0, M 0 1, M 1 1, M 2 1, M 0 2, M 1 2, M 2 2⟩ : M3 ℝ).mat
        = M := by
      intro M
      ext i j
      fin_cases i <;> fin_cases j <;> rfl
    have e' : (⟨S 0, S 1, S 2⟩ : V3 ℝ).vec = S := by
      funext i
      fin_cases i <;> rfl
    refine ⟨(⟨U 0 0, U 1 0, U 2 0, U 0 1, U 1 1, U 2 1, U 0 2, U 1 2, U 2 2⟩, ⟨S 0, S 1, S 2⟩,
      ⟨Vt 0 0, Vt 1 0, Vt 2 0, Vt 0 1, Vt 1 1, Vt 2 1, Vt 0 2, Vt 1 2, Vt 2 2⟩), ?_⟩
    rw [e, e, e']
    exact h
  choose f hf using key
  exact ⟨f, hf⟩

end Nx
