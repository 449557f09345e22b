import Mathlib.Data.Matrix.Mul
import Mathlib.Data.Matrix.Diagonal
import Verif.Spec.Homography
import Verif.Spec.Rotation
import Verif.Model.Epipolar

/-!
# Specification of the epipolar geometry
-/

namespace Nx

/-- The epipolar form: it vanishes iff the point `q` is on the epipolar line of the point `p`. -/
def epiForm {K : Type} [Field K] (F : Matrix (Fin 3) (Fin 3) K) (p q : K × K) : K :=
  dotProduct (hom2 q) (F.mulVec (hom2 p))

/-- The sum of the squares of the forms of all correspondences. -/
noncomputable def epiError (F : Matrix (Fin 3) (Fin 3) ℝ) (corr : List (PMatch ℝ)) : ℝ :=
  (corr.map fun c => epiForm F c.x c.xp ^ 2).sum

/-- `U`, `S`, `Vt` are a singular value decomposition of `A`. -/
def IsSvd3 (A U Vt : Matrix (Fin 3) (Fin 3) ℝ) (S : Fin 3 → ℝ) : Prop :=
  U * U.transpose = 1 ∧ Vt * Vt.transpose = 1 ∧ 0 ≤ S 2 ∧ S 2 ≤ S 1 ∧ S 1 ≤ S 0 ∧ U * Matrix.diagonal S * Vt = A

/-- What is assumed of the decomposition of 3×3 matrices. -/
def Svd3Contract (svd3 : M3 ℝ → M3 ℝ × V3 ℝ × M3 ℝ) : Prop :=
  ∀ A, IsSvd3 A.mat (svd3 A).1.mat (svd3 A).2.2.mat (svd3 A).2.1.vec

/-- The cross product with `t` as a matrix. -/
def crossMat {K : Type} [Field K] (t : Fin 3 → K) : Matrix (Fin 3) (Fin 3) K :=
  !![0, -t 2, t 1; t 2, 0, -t 0; -t 1, t 0, 0]

end Nx
