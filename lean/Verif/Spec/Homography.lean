import Mathlib.Algebra.BigOperators.Fin
import Mathlib.Data.Real.Basic
import Verif.Spec.Transform2D
import Verif.Model.Homography

/-!
# Specification of the estimation of homographies
-/

namespace Nx

/-- How far the transformation is from taking `p` to `q`: the two coordinates of the cross product of the
image and `q` that vanish if it does. -/
noncomputable def algResidual (A : Matrix (Fin 3) (Fin 3) ℝ) (p q : ℝ × ℝ) : ℝ :=
  (q.2 * A.mulVec (hom2 p) 2 - A.mulVec (hom2 p) 1) ^ 2 + (A.mulVec (hom2 p) 0 - q.1 * A.mulVec (hom2 p) 2) ^ 2

/-- The sum of the squares of the entries. -/
noncomputable def frobSq (A : Matrix (Fin 3) (Fin 3) ℝ) : ℝ := ∑ i, ∑ j, A i j ^ 2

/-- The sum of the residuals of all correspondences. -/
noncomputable def algError (A : Matrix (Fin 3) (Fin 3) ℝ) (corr : List (PMatch ℝ)) : ℝ :=
  (corr.map fun c => algResidual A c.x c.xp).sum

/-- What is used of the singular value decomposition of a matrix with nine rows, given by its
columns: the last left singular vector is a unit vector that minimises the sum of the squared scalar products
with the columns, and there are as many singular values as the smaller dimension. -/
def SvdContract (svd : List (Fin 9 → ℝ) → (Fin 9 → Fin 9 → ℝ) × List ℝ) : Prop :=
  ∀ cols : List (Fin 9 → ℝ), (svd cols).2.length = min 9 cols.length ∧
    ∑ k, (svd cols).1 8 k ^ 2 = 1 ∧
    ∀ v : Fin 9 → ℝ, ∑ k, v k ^ 2 = 1 →
      (cols.map fun c => (∑ k, c k * (svd cols).1 8 k) ^ 2).sum ≤ (cols.map fun c => (∑ k, c k * v k) ^ 2).sum

end Nx
