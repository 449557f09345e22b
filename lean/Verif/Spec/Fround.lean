import Mathlib.Algebra.Order.Ring.Rat

/-!
# Specification of the rounding of IEEE 754 arithmetic
-/

namespace Nx

/-- The numbers with `p` binary digits, the last one not below `2 ^ emin`. -/
def IsFloatNum (p : Nat) (emin : Int) (x : Rat) : Prop := ∃ m e : Int, |m| < 2 ^ p ∧ emin ≤ e ∧ x = m * 2 ^ e

/-- `y` is a nearest number of the format to `q`. -/
def NearestFloat (p : Nat) (emin : Int) (q y : Rat) : Prop :=
  IsFloatNum p emin y ∧ ∀ z, IsFloatNum p emin z → |y - q| ≤ |z - q|

end Nx
