import Verif.Spec.Mat
import Verif.Model.Transform2D

/-!
# Specification of the plane transformations

3×3 matrices act on the plane through homogeneous coordinates.
-/

namespace Nx

variable {K : Type} [Field K]

/-- Homogeneous coordinates of a point of the plane. -/
def hom2 (p : K × K) : Fin 3 → K := ![p.1, p.2, 1]

/-- The transformation with matrix `A` takes the point `p` to the point `q`. -/
def Projects (A : Matrix (Fin 3) (Fin 3) K) (p q : K × K) : Prop :=
  ∃ s : K, s ≠ 0 ∧ A.mulVec (hom2 p) = s • hom2 q

/-- Translation. -/
def transl2 (dx dy : K) : Matrix (Fin 3) (Fin 3) K := !![1, 0, dx; 0, 1, dy; 0, 0, 1]

/-- Rotation by the angle with cosine `c` and sine `s`. -/
def rot2 (c s : K) : Matrix (Fin 3) (Fin 3) K := !![c, -s, 0; s, c, 0; 0, 0, 1]

/-- Scaling of the axes. -/
def scale2 (a b : K) : Matrix (Fin 3) (Fin 3) K := !![a, 0, 0; 0, b, 0; 0, 0, 1]

/-- Twice the signed area of a triangle; zero iff its corners are on a line. -/
def area2 (p q r : K × K) : K := (q.1 - p.1) * (r.2 - p.2) - (q.2 - p.2) * (r.1 - p.1)

/-- The four points of an array of eight numbers. -/
def A8.pt (x : A8 K) : Fin 4 → K × K := ![(x.e0, x.e1), (x.e2, x.e3), (x.e4, x.e5), (x.e6, x.e7)]

/-- The corners of the unit square: top left, top right, bottom right, bottom left. -/
def unitCorner : Fin 4 → K × K := ![(0, 0), (1, 0), (1, 1), (0, 1)]

/-- No three of the four points are on a line. -/
def General (p : Fin 4 → K × K) : Prop :=
  area2 (p 1) (p 2) (p 3) ≠ 0 ∧ area2 (p 0) (p 2) (p 3) ≠ 0 ∧ area2 (p 0) (p 1) (p 3) ≠ 0 ∧
    area2 (p 0) (p 1) (p 2) ≠ 0

end Nx
