import Mathlib.Algebra.BigOperators.Group.Finset.Basic
import Mathlib.Algebra.Field.Rat

/-!
# What a weighted mean over a window is

The window of radius `r` around position `x`, in a line of `n` samples whose first and last sample are repeated outside.
-/

namespace Nx

/-- The nearest position in a line of `n` samples. -/
def nearest (n : Nat) (i : Int) : Nat := if i < 0 then 0 else if i < n then i.toNat else n - 1

/-- Sum of the samples of a window with weights that depend on the distance to its centre. -/
def windowSum (n r : Nat) (wt : Nat → Rat) (s : Nat → Rat) (x : Nat) : Rat :=
  ∑ t ∈ Finset.range (2 * r + 1), wt ((t : Int) - r).natAbs * s (nearest n ((x : Int) + t - r))

/-- Mean of the samples of a window. -/
def windowMean (n r : Nat) (s : Nat → Rat) (x : Nat) : Rat :=
  (∑ t ∈ Finset.range (2 * r + 1), s (nearest n ((x : Int) + t - r))) / (2 * r + 1)

/-- The weights of a window add up to one. -/
def Normal (r : Nat) (wt : Nat → Rat) : Prop := ∑ t ∈ Finset.range (2 * r + 1), wt ((t : Int) - r).natAbs = 1

end Nx
