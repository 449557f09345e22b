import Verif.Spec.Warp

/-! # Affine views of an image -/

namespace Nx

section
variable {K : Type} [Field K]

/-- Turning by the angle with cosine `c` and sine `s`. -/
def turn (c s : K) (d : K × K) : K × K := (c * d.1 - s * d.2, s * d.1 + c * d.2)

/-- Stretching along the axes. -/
def stretch (a b : K) (d : K × K) : K × K := (a * d.1, b * d.2)

/-- A view of a plane: turned by `φ`, compressed in `x` by the tilt, turned by `ψ` and scaled. -/
def viewOf (cos sin : K → K) (scale ψ tilt φ : K) (d : K × K) : K × K :=
  stretch scale scale (turn (cos ψ) (sin ψ) (stretch (1 / tilt) 1 (turn (cos φ) (sin φ) d)))

end

/-- The place from which the border of a line of `n` samples is continued: everything before sample 1 takes sample 0, and
everything from sample `n - 2` on takes sample `n - 1`. -/
def edgeCoord (n : Nat) (q : Rat) : Rat := if q < 1 then 0 else if (n : Rat) - 2 ≤ q then (n : Rat) - 1 else q

/-- The positions at which the warped image is not replaced by the background. -/
def Interior (n : Nat) (q : Rat) : Prop := 1 ≤ q ∧ q < (n : Rat) - 2

end Nx
