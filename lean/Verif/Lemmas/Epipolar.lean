import Mathlib.LinearAlgebra.Matrix.ToLinearEquiv
import Verif.Lemmas.MatchStats
import Verif.Spec.Epipolar
import Verif.Props.Mat

/-!
# Lemmas on the epipolar geometry
-/

namespace Nx

theorem fundConstraint_form (A : Matrix (Fin 3) (Fin 3) ℝ) (c : PMatch ℝ) :
    ∑ k, fundConstraint c k * vec9 A k = epiForm A c.x c.xp := by
  simp [fundConstraint, vec9, epiForm, hom2, Matrix.mulVec, dotProduct, Fin.sum_univ_succ]
  ring

theorem fundRows_ok : ∀ (n : Nat) (corr : List (PMatch ℝ)), n ≤ corr.length →
    fundRows n corr = .ok ((corr.take n).map fundConstraint)
  | 0, corr, _ => by simp [fundRows]
  | n + 1, [], h => by simp at h
  | n + 1, c :: cs, h => by
    simp only [fundRows]
    rw [fundRows_ok n cs (by simpa using h)]
    simp

theorem fundInlierRows_ok : ∀ (n : Nat) (corr : List (PMatch ℝ)), n ≤ corr.length →
    fundInlierRows n corr = .ok (((corr.take n).filter PMatch.inlier).map fundConstraint)
  | 0, corr, _ => by simp [fundInlierRows]
  | n + 1, [], h => by simp at h
  | n + 1, c :: cs, h => by
    simp only [fundInlierRows]
    rw [fundInlierRows_ok n cs (by simpa using h), List.take_succ_cons, List.filter_cons]
    split <;> simp

theorem fundRows_error (A : Matrix (Fin 3) (Fin 3) ℝ) (corr : List (PMatch ℝ)) :
    ((corr.map fundConstraint).map fun r => (∑ k, r k * vec9 A k) ^ 2).sum = epiError A corr := by
  rw [List.map_map, epiError]
  congr 1
  apply List.map_congr_left
  intro c _
  simp only [Function.comp_apply, fundConstraint_form]

theorem epiForm_smul (k : ℝ) (A : Matrix (Fin 3) (Fin 3) ℝ) (p q : ℝ × ℝ) :
    epiForm (k • A) p q = k * epiForm A p q := by
  simp [epiForm, Matrix.smul_mulVec]

/-- The squared length of a vector. -/
theorem dot_nonneg (v : Fin 3 → ℝ) : 0 ≤ dotProduct v v := by
  simp only [dotProduct, Fin.sum_univ_three]
  nlinarith [mul_self_nonneg (v 0), mul_self_nonneg (v 1), mul_self_nonneg (v 2)]

theorem dot_pos {v : Fin 3 → ℝ} (hv : v ≠ 0) : 0 < dotProduct v v := by
  rcases (dot_nonneg v).lt_or_eq with h | h
  · exact h
  · exfalso
    apply hv
    simp only [dotProduct, Fin.sum_univ_three] at h
    have h0 := mul_self_nonneg (v 0)
    have h1 := mul_self_nonneg (v 1)
    have h2 := mul_self_nonneg (v 2)
    have e0 : v 0 = 0 := mul_self_eq_zero.mp (by linarith)
    have e1 : v 1 = 0 := mul_self_eq_zero.mp (by linarith)
    have e2 : v 2 = 0 := mul_self_eq_zero.mp (by linarith)
    funext i
    fin_cases i
    · exact e0
    · exact e1
    · exact e2

/-- An orthogonal matrix preserves lengths. -/
theorem dot_orth {U : Matrix (Fin 3) (Fin 3) ℝ} (h : U.transpose * U = 1) (v : Fin 3 → ℝ) :
    dotProduct (U.mulVec v) (U.mulVec v) = dotProduct v v := by
  rw [Matrix.dotProduct_mulVec, Matrix.vecMul_mulVec, ← Matrix.dotProduct_mulVec, h, Matrix.one_mulVec]

/-- The Frobenius norm bounds the operator norm. -/
theorem mulVec_le_frob (A : Matrix (Fin 3) (Fin 3) ℝ) (v : Fin 3 → ℝ) :
    dotProduct (A.mulVec v) (A.mulVec v) ≤ frobSq A * dotProduct v v := by
  have cs : ∀ a b c x y z : ℝ, (a * x + b * y + c * z) * (a * x + b * y + c * z)
      ≤ (a ^ 2 + b ^ 2 + c ^ 2) * (x * x + y * y + z * z) := by
    intro a b c x y z
    nlinarith [sq_nonneg (a * y - b * x), sq_nonneg (a * z - c * x), sq_nonneg (b * z - c * y)]
  have h0 := cs (A 0 0) (A 0 1) (A 0 2) (v 0) (v 1) (v 2)
  have h1 := cs (A 1 0) (A 1 1) (A 1 2) (v 0) (v 1) (v 2)
  have h2 := cs (A 2 0) (A 2 1) (A 2 2) (v 0) (v 1) (v 2)
  simp only [frobSq, Matrix.mulVec, dotProduct, Fin.sum_univ_three]
  linarith

/-- The Frobenius norm through the trace. -/
theorem frobSq_trace (A : Matrix (Fin 3) (Fin 3) ℝ) : frobSq A = (A.transpose * A).trace := by
  simp [frobSq, Matrix.trace, Matrix.mul_apply, Fin.sum_univ_three]
  ring

theorem frobSq_orth {U Vt D : Matrix (Fin 3) (Fin 3) ℝ} (hU : U.transpose * U = 1) (hV : Vt * Vt.transpose = 1) :
    frobSq (U * D * Vt) = frobSq D := by
  rw [frobSq_trace, frobSq_trace, Matrix.transpose_mul, Matrix.transpose_mul]
  calc (Vt.transpose * (D.transpose * U.transpose) * (U * D * Vt)).trace
      = (Vt.transpose * (D.transpose * (U.transpose * U) * D * Vt)).trace := by simp only [Matrix.mul_assoc]
    _ = (D.transpose * D * (Vt * Vt.transpose)).trace := by
        rw [hU, Matrix.mul_one, Matrix.trace_mul_comm, Matrix.mul_assoc]
    _ = (D.transpose * D).trace := by rw [hV, Matrix.mul_one]

end Nx
