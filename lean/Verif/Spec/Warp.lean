import Mathlib.Data.Rat.Floor
import Mathlib.Algebra.Order.Ring.Rat

/-! # Bilinear interpolation -/

namespace Nx

/-- The value at `(x, y)` between the four pixels around it, for an image that is given on all integers. -/
def bilinearAt (f : Int → Int → Rat) (x y : Rat) : Rat :=
  (1 - Int.fract y) * ((1 - Int.fract x) * f ⌊x⌋ ⌊y⌋ + Int.fract x * f (⌊x⌋ + 1) ⌊y⌋)
    + Int.fract y * ((1 - Int.fract x) * f ⌊x⌋ (⌊y⌋ + 1) + Int.fract x * f (⌊x⌋ + 1) (⌊y⌋ + 1))

/-- Position in a line of `n` samples that is continued by reflection at its first and last sample, forth and back. -/
def fold (n : Nat) (i : Int) : Nat :=
  let m := i % (2 * ((n : Int) - 1))
  if m < n then m.toNat else (2 * ((n : Int) - 1) - m).toNat

end Nx
