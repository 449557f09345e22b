import Mathlib.Algebra.Order.Ring.Rat

/-!
# Specification of the scaling of images in `float`
-/

namespace Nx

/-- `n` is `w * s`, correct up to one part in 16777216, rounded down. -/
def ScaledLen (w : Nat) (s : Rat) (n : Nat) : Prop :=
  (n : Rat) ≤ w * s * (1 + 1 / 16777216) ∧ (w : Rat) * s * (1 - 1 / 16777216) < n + 1

/-- `p` is a position between the first and the last of `w` samples, and `x / s` up to one part in eight millions of the width. -/
def ScaledPos (w : Nat) (s : Rat) (x : Nat) (p : Rat) : Prop := 0 ≤ p ∧ p < (w : Rat) - 1 ∧ |p - x / s| ≤ (w : Rat) / 8000000

end Nx
