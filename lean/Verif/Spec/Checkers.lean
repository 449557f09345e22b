import Mathlib.Algebra.BigOperators.Fin
import Verif.Spec.Warp
import Verif.Spec.ImageFilter

/-! # Specification of the detector of checkerboards: rotated images, spread of values -/

namespace Nx

/-- The position in the source for a pixel of a rotated image: both centres correspond. -/
def fromX (c cw : Rat) (dw dh sw : Nat) (x y : Rat) : Rat := sw / 2 + c * ((x - dw / 2) + cw * (y - dh / 2))

/-- The same for the other coordinate. -/
def fromY (c cw : Rat) (dw dh sh : Nat) (x y : Rat) : Rat := sh / 2 + c * ((y - dh / 2) - cw * (x - dw / 2))

/-- The difference of the largest and the smallest of four values, relative to the range of the samples. -/
def spread (v : Fin 4 → Nat) : Rat :=
  (((Finset.univ.sup' ⟨0, Finset.mem_univ _⟩ v : Nat) : Rat) - (Finset.univ.inf' ⟨0, Finset.mem_univ _⟩ v : Nat)) / 255

end Nx
