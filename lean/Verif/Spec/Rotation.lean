import Mathlib.Algebra.Quaternion
import Mathlib.LinearAlgebra.UnitaryGroup
import Mathlib.Analysis.SpecialFunctions.Trigonometric.Basic
import Mathlib.LinearAlgebra.CrossProduct
import Verif.Spec.Mat
import Verif.Model.Rotation

/-!
# Specification of quaternions and rotations
-/

namespace Nx

open Quaternion

/-- The quaternion of Mathlib an array of four numbers stands for. -/
def Q4.quat {K : Type} (q : Q4 K) [CommRing K] : ℍ[K] := ⟨q.e0, q.e1, q.e2, q.e3⟩

/-- A vector as a quaternion without real part. -/
def V3.quat {K : Type} [CommRing K] (v : V3 K) : ℍ[K] := ⟨0, v.e0, v.e1, v.e2⟩

/-- Rotations: orthogonal matrices of determinant one. -/
def IsRotation {K : Type} [CommRing K] (R : Matrix (Fin 3) (Fin 3) K) : Prop := R * R.transpose = 1 ∧ R.det = 1

/-- Rotation about the first axis. -/
noncomputable def rotX (a : ℝ) : Matrix (Fin 3) (Fin 3) ℝ :=
  !![1, 0, 0;
     0, Real.cos a, -Real.sin a;
     0, Real.sin a, Real.cos a]

/-- Rotation about the second axis. -/
noncomputable def rotY (a : ℝ) : Matrix (Fin 3) (Fin 3) ℝ :=
  !![Real.cos a, 0, Real.sin a;
     0, 1, 0;
     -Real.sin a, 0, Real.cos a]

/-- Rotation about the third axis. -/
noncomputable def rotZ (a : ℝ) : Matrix (Fin 3) (Fin 3) ℝ :=
  !![Real.cos a, -Real.sin a, 0;
     Real.sin a, Real.cos a, 0;
     0, 0, 1]

/-- Rotation of a vector about a unit vector `n` by the formula of Rodrigues. -/
noncomputable def rodrigues (n : Fin 3 → ℝ) (a : ℝ) (v : Fin 3 → ℝ) : Fin 3 → ℝ :=
  Real.cos a • v + Real.sin a • crossProduct n v + ((1 - Real.cos a) * (n ⬝ᵥ v)) • n

end Nx
