import Verif.Lemmas.Epipolar
import Verif.Props.Mark
import Verif.Props.Rotation

/-!
# Lemmas on the essential matrix
-/

namespace Nx

section
variable {K : Type} [Field K]

/-- The cross product matrix transforms like a two-form. -/
theorem crossMat_conj (U : Matrix (Fin 3) (Fin 3) K) (v : Fin 3 → K) :
    U.transpose * crossMat (U.mulVec v) * U = U.det • crossMat v := by
  ext i j
  fin_cases i <;> fin_cases j <;>
    simp [crossMat, Matrix.mul_apply, Matrix.mulVec, dotProduct, Fin.sum_univ_three, Matrix.det_fin_three] <;> ring

theorem crossMat_rot {U : Matrix (Fin 3) (Fin 3) K} (hU : IsRotation U) (v : Fin 3 → K) :
    crossMat (U.mulVec v) * U = U * crossMat v := by
  have h := crossMat_conj U v
  rw [hU.2, one_smul] at h
  rw [← h, Matrix.mul_assoc, ← Matrix.mul_assoc, hU.1, Matrix.one_mul]

omit [Field K] in
theorem vec_injective {a b : V3 K} (h : a.vec = b.vec) : a = b := by
  have h0 := congrFun h 0
  have h1 := congrFun h 1
  have h2 := congrFun h 2
  cases a
  cases b
  simp [V3.vec] at h0 h1 h2
  simp [h0, h1, h2]

/-- The quarter turn about the third axis. -/
def quarter : Matrix (Fin 3) (Fin 3) K := !![0, -1, 0; 1, 0, 0; 0, 0, 1]

theorem quarter_rot : IsRotation (quarter : Matrix (Fin 3) (Fin 3) K) := by
  constructor
  · ext i j
    fin_cases i <;> fin_cases j <;> simp [quarter, Matrix.mul_apply, Fin.sum_univ_three]
  · simp [quarter, Matrix.det_fin_three]

theorem IsRotation.transpose {A : Matrix (Fin 3) (Fin 3) K} (hA : IsRotation A) : IsRotation A.transpose := by
  constructor
  · rw [Matrix.transpose_transpose]
    exact mul_eq_one_comm.mp hA.1
  · rw [Matrix.det_transpose, hA.2]

/-- A rotation whose product with the cross product matrix of a multiple `±1` of the third axis is the projection. -/
theorem turn_of_cross {Q : Matrix (Fin 3) (Fin 3) K} (hQ : IsRotation Q) (e : K) (he : e * e = 1)
    (h : crossMat ![0, 0, 1] * Q = e • Matrix.diagonal ![1, 1, 0]) :
    Q = !![0, e, 0; -e, 0, 0; 0, 0, 1] := by
  have hr := fun i j => congrFun (congrFun h i) j
  have a00 := hr 0 0
  have a01 := hr 0 1
  have a02 := hr 0 2
  have a10 := hr 1 0
  have a11 := hr 1 1
  have a12 := hr 1 2
  simp [crossMat, Matrix.mul_apply, Fin.sum_univ_three] at a00 a01 a02 a10 a11 a12
  have ho : ∀ i j, (Q * Q.transpose) i j = (1 : Matrix (Fin 3) (Fin 3) K) i j := fun i j => by rw [hQ.1]
  have o02 := ho 0 2
  have o12 := ho 1 2
  have hd := hQ.2
  simp [Matrix.mul_apply, Fin.sum_univ_three] at o02 o12
  rw [Matrix.det_fin_three] at hd
  have b10 : Q 1 0 = -e := by rw [← a00, neg_neg]
  rw [a10, a12, a11] at o02 hd
  rw [b10, a01, a02] at o12
  rw [b10, a01, a02] at hd
  have c21 : Q 2 1 = 0 := by
    have : e * e * Q 2 1 = 0 := by linear_combination e * o02
    rwa [he, one_mul] at this
  have c20 : Q 2 0 = 0 := by
    have : e * e * Q 2 0 = 0 := by linear_combination -e * o12
    rwa [he, one_mul] at this
  have c22 : Q 2 2 = 1 := by linear_combination hd - Q 2 2 * he
  ext i j
  fin_cases i <;> fin_cases j <;> simp [a10, a11, a12, b10, a01, a02, c20, c21, c22]

end

/-- The matrix with the fixed sign. -/
theorem fixSign_mat (A : M3 ℝ) : (fixSign A).mat = if A.mat.det < 0 then -A.mat else A.mat := by
  rw [fixSign, c57_det]
  split
  · ext i j
    fin_cases i <;> fin_cases j <;> simp [M3.mat]
  · rfl

theorem fixSign_rot (A : M3 ℝ) (h : A.mat * A.mat.transpose = 1) :
    IsRotation (fixSign A).mat ∧ ∃ e : ℝ, e * e = 1 ∧ A.mat = e • (fixSign A).mat := by
  have hd : A.mat.det * A.mat.det = 1 := by
    have := congrArg Matrix.det h
    rwa [Matrix.det_mul, Matrix.det_transpose, Matrix.det_one] at this
  rw [fixSign_mat]
  split
  · rename_i hn
    refine ⟨⟨?_, ?_⟩, -1, by norm_num, by simp⟩
    · rw [Matrix.transpose_neg, neg_mul_neg, h]
    · rw [Matrix.det_neg]
      simp only [Fintype.card_fin]
      nlinarith
  · rename_i hn
    refine ⟨⟨h, ?_⟩, 1, by norm_num, by simp⟩
    nlinarith

end Nx
