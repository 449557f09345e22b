import Verif.Spec.Epipolar
import Verif.Model.Pinhole

/-!
# Specification of the pinhole camera
-/

namespace Nx

/-- A camera with the matrix `P` sees the point `X` of the space at the point `q` of the image. -/
def Sees {K : Type} [Field K] (P : Matrix (Fin 3) (Fin 4) K) (X : Fin 3 → K) (q : K × K) : Prop :=
  ∃ s : K, s ≠ 0 ∧ P.mulVec (homog X) = s • hom2 q

/-- The depth of a point, up to the scale of the matrix. -/
def depth {K : Type} [Field K] (P : Matrix (Fin 3) (Fin 4) K) (X : Fin 3 → K) : K := P.mulVec (homog X) 2

/-- A camera whose centre is the point `C`. -/
def CentredAt (P : Matrix (Fin 3) (Fin 4) ℝ) (C : Fin 3 → ℝ) : Prop :=
  (P.submatrix id Fin.castSucc).det ≠ 0 ∧ P.mulVec (homog C) = 0

/-- The algebraic error of a point with the homogeneous coordinates `Y` for the images `x` and `xp`. -/
noncomputable def triError (P0 P1 : Matrix (Fin 3) (Fin 4) ℝ) (x xp : ℝ × ℝ) (Y : Fin 4 → ℝ) : ℝ :=
  (x.1 * P0.mulVec Y 2 - P0.mulVec Y 0) ^ 2 + (x.2 * P0.mulVec Y 2 - P0.mulVec Y 1) ^ 2
    + (xp.1 * P1.mulVec Y 2 - P1.mulVec Y 0) ^ 2 + (xp.2 * P1.mulVec Y 2 - P1.mulVec Y 1) ^ 2

/-- What is used of the decomposition of a matrix with four rows, given by its columns. -/
def Svd4Contract (svd4 : List (Fin 4 → ℝ) → Fin 4 → Fin 4 → ℝ) : Prop :=
  ∀ cols : List (Fin 4 → ℝ), ∑ k, svd4 cols 3 k ^ 2 = 1 ∧
    ∀ v : Fin 4 → ℝ, ∑ k, v k ^ 2 = 1 →
      (cols.map fun c => (∑ k, c k * svd4 cols 3 k) ^ 2).sum ≤ (cols.map fun c => (∑ k, c k * v k) ^ 2).sum

end Nx
