import Mathlib.LinearAlgebra.Matrix.Notation
import Mathlib.LinearAlgebra.Matrix.Determinant.Basic
import Mathlib.Algebra.BigOperators.Group.Finset.Basic
import Verif.Model.Mat

/-!
# Specification of the small matrices

The arrays are read as matrices stored by columns; products, inverses and determinants
are those of Mathlib.
-/

namespace Nx

variable {K : Type}

/-- The vector an array of three numbers stands for. -/
def V3.vec (v : V3 K) : Fin 3 → K := ![v.e0, v.e1, v.e2]

/-- The 3×3 matrix an array of nine numbers stands for, stored by columns. -/
def M3.mat (A : M3 K) : Matrix (Fin 3) (Fin 3) K :=
  !![A.e0, A.e3, A.e6;
     A.e1, A.e4, A.e7;
     A.e2, A.e5, A.e8]

/-- The 3×4 matrix an array of twelve numbers stands for, stored by columns. -/
def M34.mat (A : M34 K) : Matrix (Fin 3) (Fin 4) K :=
  !![A.e0, A.e3, A.e6, A.e9;
     A.e1, A.e4, A.e7, A.e10;
     A.e2, A.e5, A.e8, A.e11]

/-- The 4×4 matrix an array of sixteen numbers stands for, stored by columns. -/
def M4.mat (A : M4 K) : Matrix (Fin 4) (Fin 4) K :=
  !![A.e0, A.e4, A.e8, A.e12;
     A.e1, A.e5, A.e9, A.e13;
     A.e2, A.e6, A.e10, A.e14;
     A.e3, A.e7, A.e11, A.e15]

/-- Homogeneous coordinates of a point of the space. -/
def homog [One K] (v : Fin 3 → K) : Fin 4 → K := ![v 0, v 1, v 2, 1]

/-- The list `L` stores an `m`×`n` matrix by columns with leading dimension `ld`. -/
def Stores (L : List K) (m n ld : Nat) (A : Matrix (Fin m) (Fin n) K) : Prop :=
  ∀ (r : Fin m) (c : Fin n), L[c.val * ld + r.val]? = some (A r c)

end Nx
