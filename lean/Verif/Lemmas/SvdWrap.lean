import Mathlib.Analysis.InnerProductSpace.Spectrum
import Mathlib.Analysis.InnerProductSpace.Adjoint
import Mathlib.Analysis.InnerProductSpace.Positive
import Mathlib.Tactic.Linarith
import Verif.Spec.SvdWrap
import Verif.Lemmas.Ledger

/-!
# Lemmas on the singular value decomposition: it exists, and its last vector is where the matrix is least
-/

namespace Nx

theorem diag_col_sq {m n : Nat} (S : Nat → ℝ) (w : Fin m → ℝ) (j : Fin n) :
    (∑ i, diagMat m n S i j * w i) ^ 2 = ∑ i, diagMat m n S i j ^ 2 * w i ^ 2 := by
  by_cases h : j.val < m
  · rw [Finset.sum_eq_single (⟨j.val, h⟩ : Fin m), Finset.sum_eq_single (⟨j.val, h⟩ : Fin m)]
    · ring
    · intro b _ hb
      have : b.val ≠ j.val := fun e => hb (Fin.ext e)
      simp [diagMat, this]
    · simp
    · intro b _ hb
      have : b.val ≠ j.val := fun e => hb (Fin.ext e)
      simp [diagMat, this]
    · simp
  · have : ∀ i : Fin m, diagMat m n S i j = 0 := by
      intro i
      have : i.val ≠ j.val := by omega
      simp [diagMat, this]
    simp [this]

/-- The sum of the squares of a row of the diagonal matrix. -/
theorem diag_row_sq {m n : Nat} (S : Nat → ℝ) (i : Fin m) :
    ∑ j : Fin n, diagMat m n S i j ^ 2 = if i.val < n then S i.val ^ 2 else 0 := by
  by_cases h : i.val < n
  · rw [if_pos h, Finset.sum_eq_single (⟨i.val, h⟩ : Fin n)]
    · simp [diagMat]
    · intro b _ hb
      have : i.val ≠ b.val := fun e => hb (Fin.ext e.symm)
      simp [diagMat, this]
    · simp
  · rw [if_neg h]
    apply Finset.sum_eq_zero
    intro j _
    have : i.val ≠ j.val := by omega
    simp [diagMat, this]

theorem dot_self_orth {m : Nat} {Q : Matrix (Fin m) (Fin m) ℝ} (h : Q * Q.transpose = 1) (x : Fin m → ℝ) :
    dotProduct (Matrix.vecMul x Q) (Matrix.vecMul x Q) = dotProduct x x := by
  rw [← Matrix.mulVec_transpose Q x]
  conv_lhs => rw [Matrix.dotProduct_mulVec, Matrix.vecMul_transpose]
  rw [Matrix.mulVec_mulVec, h, Matrix.one_mulVec]

theorem dot_sq {m : Nat} (x : Fin m → ℝ) : dotProduct x x = ∑ i, x i ^ 2 := by
  simp [dotProduct, sq]

/-- The squared length of the product with a matrix in the coordinates of the left vectors. -/
theorem svd_length {m n : Nat} {M : Matrix (Fin m) (Fin n) ℝ} {U : Matrix (Fin m) (Fin m) ℝ} {S : Nat → ℝ}
    {Vt : Matrix (Fin n) (Fin n) ℝ} (h : IsSvd M U S Vt) (v : Fin m → ℝ) :
    ∑ j, (∑ i, M i j * v i) ^ 2 = ∑ i, (Matrix.vecMul v U i) ^ 2 * (if i.val < n then S i.val ^ 2 else 0) := by
  obtain ⟨-, hV, -, -, rfl⟩ := h
  have e1 : ∀ j, (∑ i, (U * diagMat m n S * Vt) i j * v i) = Matrix.vecMul (Matrix.vecMul (Matrix.vecMul v U) (diagMat m n S)) Vt j := by
    intro j
    rw [Matrix.vecMul_vecMul, Matrix.vecMul_vecMul]
    simp [Matrix.vecMul, dotProduct, mul_comm, Matrix.mul_assoc]
  simp only [e1]
  rw [← dot_sq, dot_self_orth hV, dot_sq]
  have e2 : ∀ j, (Matrix.vecMul (Matrix.vecMul v U) (diagMat m n S) j) ^ 2 = ∑ i, diagMat m n S i j ^ 2 * (Matrix.vecMul v U i) ^ 2 := by
    intro j
    rw [← diag_col_sq]
    simp [Matrix.vecMul, dotProduct, mul_comm]
  simp only [e2]
  rw [Finset.sum_comm]
  apply Finset.sum_congr rfl
  intro i _
  rw [← Finset.sum_mul, diag_row_sq]
  ring

theorem svd_antitone {m n : Nat} {S : Nat → ℝ} (h : ∀ k, k + 1 < min m n → S (k + 1) ≤ S k) {i j : Nat} (hij : i ≤ j) (hj : j < min m n) :
    S j ≤ S i := by
  induction j with
  | zero => obtain rfl : i = 0 := by omega
            exact le_refl _
  | succ j ih =>
    rcases Nat.lt_or_ge i (j + 1) with hl | hl
    · exact (h j hj).trans (ih (by omega) (by omega))
    · obtain rfl : i = j + 1 := by omega
      exact le_refl _

/-- The last left vector has length one and no vector of length one has smaller products with the columns. -/
theorem svd_last {m n : Nat} {M : Matrix (Fin (m + 1)) (Fin n) ℝ} {U : Matrix (Fin (m + 1)) (Fin (m + 1)) ℝ} {S : Nat → ℝ}
    {Vt : Matrix (Fin n) (Fin n) ℝ} (h : IsSvd M U S Vt) :
    ∑ i, U i (Fin.last m) ^ 2 = 1 ∧
    ∑ j, (∑ i, M i j * U i (Fin.last m)) ^ 2 = (if m < n then S m ^ 2 else 0) ∧
    ∀ v : Fin (m + 1) → ℝ, ∑ i, v i ^ 2 = 1 →
      ∑ j, (∑ i, M i j * U i (Fin.last m)) ^ 2 ≤ ∑ j, (∑ i, M i j * v i) ^ 2 := by
  have hU := h.1
  have hU' : U.transpose * U = 1 := mul_eq_one_comm.mp hU
  have unit : ∀ k, Matrix.vecMul (fun i => U i (Fin.last m)) U k = if k = Fin.last m then 1 else 0 := by
    intro k
    have := congrFun (congrFun hU' (Fin.last m)) k
    rw [Matrix.mul_apply] at this
    simp only [Matrix.vecMul, dotProduct]
    simp only [Matrix.transpose_apply] at this
    rw [this, Matrix.one_apply]
    by_cases hk : k = Fin.last m
    · simp [hk]
    · rw [if_neg hk, if_neg (fun e => hk e.symm)]
  have last : ∑ j, (∑ i, M i j * U i (Fin.last m)) ^ 2 = (if m < n then S m ^ 2 else 0) := by
    rw [svd_length h, Finset.sum_eq_single (Fin.last m)]
    · rw [unit, if_pos rfl]; simp
    · intro b _ hb
      rw [unit, if_neg hb]; simp
    · simp
  refine ⟨?_, last, ?_⟩
  · have := congrFun (congrFun hU' (Fin.last m)) (Fin.last m)
    rw [Matrix.mul_apply] at this
    simp only [Matrix.transpose_apply, Matrix.one_apply_eq] at this
    rw [← this]
    exact Finset.sum_congr rfl (fun i _ => by ring)
  · intro v hv
    rw [last, svd_length h]
    have hw : ∑ i, (Matrix.vecMul v U i) ^ 2 = 1 := by
      rw [← dot_sq, dot_self_orth hU, dot_sq, hv]
    by_cases hn : m < n
    · rw [if_pos hn]
      have : ∑ i, (Matrix.vecMul v U i) ^ 2 * S m ^ 2 ≤ ∑ i : Fin (m + 1), (Matrix.vecMul v U i) ^ 2 * (if i.val < n then S i.val ^ 2
        else 0) := by
        apply Finset.sum_le_sum
        intro i _
        rw [if_pos (by omega)]
        apply mul_le_mul_of_nonneg_left _ (sq_nonneg _)
        have h0 := h.2.2.1 m (by omega)
        have h1 := svd_antitone h.2.2.2.1 (i := i.val) (j := m) (by omega) (by omega)
        exact pow_le_pow_left₀ h0 h1 2
      rw [← Finset.sum_mul, hw, one_mul] at this
      exact this
    · rw [if_neg hn]
      apply Finset.sum_nonneg
      intro i _
      split
      · exact mul_nonneg (sq_nonneg _) (sq_nonneg _)
      · simp

/-- Every matrix has a decomposition. -/
theorem exists_svd {m n : Nat} (A : Matrix (Fin m) (Fin n) ℝ) : ∃ U S Vt, IsSvd A U S Vt := by
  let T : EuclideanSpace ℝ (Fin n) →ₗ[ℝ] EuclideanSpace ℝ (Fin m) := Matrix.toEuclideanLin A
  have hpos := LinearMap.isPositive_adjoint_comp_self T
  have hsym := hpos.isSymmetric
  have hn : Module.finrank ℝ (EuclideanSpace ℝ (Fin n)) = n := by simp
  have hm : Module.finrank ℝ (EuclideanSpace ℝ (Fin m)) = m := by simp
  let v := hsym.eigenvectorBasis hn
  let lam := hsym.eigenvalues hn
  have hlam : ∀ i, 0 ≤ lam i := fun i => hpos.nonneg_eigenvalues hn i
  have hanti : ∀ i j, i ≤ j → lam j ≤ lam i := fun i j h => hsym.eigenvalues_antitone hn h
  have hw : ∀ i j, inner ℝ (T (v i)) (T (v j)) = if i = j then lam i else 0 := by
    intro i j
    rw [← LinearMap.adjoint_inner_left, ← LinearMap.comp_apply]
    have : (LinearMap.adjoint T ∘ₗ T) (v i) = (lam i : ℝ) • v i := hsym.apply_eigenvectorBasis hn i
    rw [this, inner_smul_left, orthonormal_iff_ite.mp v.orthonormal i j]
    simp
  let w : Fin n → EuclideanSpace ℝ (Fin m) := fun i => (Real.sqrt (lam i))⁻¹ • T (v i)
  have hww : ∀ i j, lam i ≠ 0 → lam j ≠ 0 → inner ℝ (w i) (w j) = if i = j then (1 : ℝ) else 0 := by
    intro i j hi hj
    have hip : 0 < lam i := lt_of_le_of_ne (hlam i) (Ne.symm hi)
    simp only [w, inner_smul_left, inner_smul_right, hw]
    by_cases hij : i = j
    · subst hij
      simp only [if_true, conj_trivial]
      have h1 := Real.mul_self_sqrt (hlam i)
      have h2 := (Real.sqrt_pos.mpr hip).ne'
      field_simp
      rw [sq, h1]
    · simp [hij]
  have hrank : ∀ j : Fin n, lam j ≠ 0 → j.val < m := by
    intro j hj
    let f : Fin (j.val + 1) → EuclideanSpace ℝ (Fin m) := fun i => w ⟨i.val, by omega⟩
    have hf : Orthonormal ℝ f := by
      rw [orthonormal_iff_ite]
      intro a b
      have pos : ∀ a : Fin (j.val + 1), lam ⟨a.val, by omega⟩ ≠ 0 := by
        intro a h0
        have := hanti ⟨a.val, by omega⟩ j (by rw [Fin.le_def]; show a.val ≤ j.val; omega)
        rw [h0] at this
        exact hj (le_antisymm this (hlam j))
      rw [hww _ _ (pos a) (pos b)]
      simp [Fin.ext_iff]
    have := hf.linearIndependent.fintype_card_le_finrank
    rw [hm, Fintype.card_fin] at this
    omega
  let w' : Fin m → EuclideanSpace ℝ (Fin m) := fun i => if h : i.val < n then w ⟨i.val, h⟩ else 0
  let s : Set (Fin m) := {i | ∃ h : i.val < n, lam ⟨i.val, h⟩ ≠ 0}
  have hort : Orthonormal ℝ (s.domRestrict w') := by
    rw [orthonormal_iff_ite]
    rintro ⟨i, hi, hi'⟩ ⟨j, hj, hj'⟩
    show inner ℝ (w' i) (w' j) = _
    simp only [w', dif_pos hi, dif_pos hj]
    rw [hww _ _ hi' hj']
    simp [Fin.ext_iff]
  obtain ⟨u, hu⟩ := hort.exists_orthonormalBasis_extension_of_card_eq (by simp [hm])
  have hT : ∀ j : Fin n, ∀ h : j.val < m, T (v j) = Real.sqrt (lam j) • u ⟨j.val, h⟩ := by
    intro j h
    by_cases hi : lam j = 0
    · have := hw j j
      rw [if_pos rfl, hi, real_inner_self_eq_norm_sq] at this
      have h0 : T (v j) = 0 := by
        rw [← norm_eq_zero]
        exact pow_eq_zero_iff two_ne_zero |>.mp this
      rw [h0, hi]
      simp
    · rw [hu ⟨j.val, h⟩ ⟨j.isLt, hi⟩]
      have hip : 0 < lam j := lt_of_le_of_ne (hlam j) (Ne.symm hi)
      simp only [w', dif_pos j.isLt, w, smul_smul, Fin.eta]
      rw [mul_inv_cancel₀ (Real.sqrt_pos.mpr hip).ne', one_smul]
  have hT0 : ∀ j : Fin n, ¬ j.val < m → T (v j) = 0 := by
    intro j h
    have hi : lam j = 0 := by
      by_contra h'
      exact h (hrank j h')
    have := hw j j
    rw [if_pos rfl, hi, real_inner_self_eq_norm_sq] at this
    rw [← norm_eq_zero]
    exact pow_eq_zero_iff two_ne_zero |>.mp this
  have hM : ∀ (p : Nat) (b : OrthonormalBasis (Fin p) ℝ (EuclideanSpace ℝ (Fin p))),
      (Matrix.of fun r c => b c r : Matrix (Fin p) (Fin p) ℝ).transpose * (Matrix.of fun r c => b c r) = 1 := by
    intro p b
    ext i j
    have := orthonormal_iff_ite.mp b.orthonormal j i
    rw [PiLp.inner_apply] at this
    simp only [Matrix.mul_apply, Matrix.transpose_apply, Matrix.of_apply, Matrix.one_apply]
    simp at this
    rw [this]
    simp [eq_comm]
  let Mu : Matrix (Fin m) (Fin m) ℝ := Matrix.of fun r c => u c r
  let Mv : Matrix (Fin n) (Fin n) ℝ := Matrix.of fun r c => v c r
  let S : Nat → ℝ := fun k => if h : k < n then Real.sqrt (lam ⟨k, h⟩) else 0
  refine ⟨Mu, S, Mv.transpose, mul_eq_one_comm.mp (hM m u), ?_, ?_, ?_, ?_⟩
  · rw [Matrix.transpose_transpose]
    exact hM n v
  · intro k hk
    simp only [S]
    split
    · exact Real.sqrt_nonneg _
    · exact le_refl _
  · intro k hk
    simp only [S]
    rw [dif_pos (by omega), dif_pos (by omega)]
    exact Real.sqrt_le_sqrt (hanti _ _ (by rw [Fin.le_def]; show k ≤ k + 1; omega))
  · have key : A * Mv = Mu * diagMat m n S := by
      ext r c
      rw [Matrix.mul_apply, Matrix.mul_apply]
      have e : ∑ j, A r j * Mv j c = (T (v c)) r := by
        simp [T, Mv, Matrix.toEuclideanLin, Matrix.mulVec, dotProduct]
      rw [e]
      by_cases hc : c.val < m
      · rw [hT c hc, Finset.sum_eq_single (⟨c.val, hc⟩ : Fin m)]
        · simp [Mu, diagMat, S, mul_comm]
        · intro b _ hb
          have : b.val ≠ c.val := fun e => hb (Fin.ext e)
          simp [diagMat, this]
        · simp
      · rw [hT0 c hc, Finset.sum_eq_zero]
        · rfl
        · intro b _
          have : b.val ≠ c.val := by omega
          simp [diagMat, this]
    rw [← key, Matrix.mul_assoc, mul_eq_one_comm.mp (hM n v), Matrix.mul_one]

end Nx
