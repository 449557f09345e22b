import Verif.Model.Mat
import Verif.Spec.SiftDog

/-!
# Specification of the interpolation of extrema
-/

namespace Nx

section
variable {K : Type} [Field K] [LinearOrder K]

/-- The values around a pixel, by offsets in column, row and scale from -1 to 1. -/
abbrev Cube (K : Type) := Int → Int → Int → K

/-- The derivatives of the paraboloid through the cube. -/
def Cube.dx (q : Cube K) : K := (q 1 0 0 - q (-1) 0 0) / 2
def Cube.dy (q : Cube K) : K := (q 0 1 0 - q 0 (-1) 0) / 2
def Cube.ds (q : Cube K) : K := (q 0 0 1 - q 0 0 (-1)) / 2
def Cube.xx (q : Cube K) : K := q 1 0 0 - 2 * q 0 0 0 + q (-1) 0 0
def Cube.yy (q : Cube K) : K := q 0 1 0 - 2 * q 0 0 0 + q 0 (-1) 0
def Cube.ss (q : Cube K) : K := q 0 0 1 - 2 * q 0 0 0 + q 0 0 (-1)
def Cube.xy (q : Cube K) : K := (q 1 1 0 - q (-1) 1 0 - q 1 (-1) 0 + q (-1) (-1) 0) / 4
def Cube.xs (q : Cube K) : K := (q 1 0 1 - q (-1) 0 1 - q 1 0 (-1) + q (-1) 0 (-1)) / 4
def Cube.ys (q : Cube K) : K := (q 0 1 1 - q 0 (-1) 1 - q 0 1 (-1) + q 0 (-1) (-1)) / 4

/-- The paraboloid. -/
def Cube.quad (q : Cube K) (x y s : K) : K :=
  q 0 0 0 + q.dx * x + q.dy * y + q.ds * s + (q.xx * x ^ 2 + q.yy * y ^ 2 + q.ss * s ^ 2) / 2 + q.xy * x * y + q.xs * x * s + q.ys * y * s

/-- The gradient of the paraboloid is zero. -/
def Cube.Stationary (q : Cube K) (x y s : K) : Prop :=
  q.dx + q.xx * x + q.xy * y + q.xs * s = 0 ∧ q.dy + q.xy * x + q.yy * y + q.ys * s = 0 ∧ q.ds + q.xs * x + q.ys * y + q.ss * s = 0

/-- The contract of the solver: the lower triangle of the array (column by column) describes a symmetric matrix, and a result is a
solution. -/
def SolvesLower (solve : M3 K → V3 K → Option (V3 K)) : Prop :=
  ∀ a b x, solve a b = some x →
    a.e0 * x.e0 + a.e1 * x.e1 + a.e2 * x.e2 = b.e0 ∧ a.e1 * x.e0 + a.e4 * x.e1 + a.e5 * x.e2 = b.e1 ∧
      a.e2 * x.e0 + a.e5 * x.e1 + a.e8 * x.e2 = b.e2

end

end Nx
