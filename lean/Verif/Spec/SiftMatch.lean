import Mathlib.Data.Rat.Defs
import Mathlib.Algebra.Order.Ring.Rat
import Mathlib.Algebra.BigOperators.Group.Finset.Basic
import Verif.Core

/-!
# Specification of the matching of descriptors
-/

namespace Nx

/-- What is used of the rounding to `float`: it is monotone, does not change rounded
numbers and keeps integers of 24 bits. -/
structure FloatRound (rd : Rat → Rat) : Prop where
  mono : ∀ a b, a ≤ b → rd a ≤ rd b
  idem : ∀ a, rd (rd a) = rd a
  exact : ∀ n : Nat, n ≤ 16777216 → rd n = n

/-- The squared distance of two vectors of bytes. -/
def vecDistSq (a b : List Byte) : Nat :=
  (List.zipWith (fun x y : Byte => (((x.toNat : Int) - y.toNat) ^ 2).toNat) a b).sum

/-- The `i`-th vector of 128 bytes in an array. -/
def descAt (desc : List Byte) (i : Nat) : List Byte := (desc.drop (128 * i)).take 128

/-- `j` is the first of the nearest candidates, by the distances `f`. -/
def FirstNearest (f : Nat → Nat) (np j : Nat) : Prop :=
  j < np ∧ (∀ k, k < np → f j ≤ f k) ∧ ∀ k, k < j → f j < f k

/-- `j` is nearer than a part of the distance of each other candidate; `part d` is what `d`
is lowered to. A distance of `2147483647` takes part in the comparison, so that one
candidate alone is not always taken. -/
def ClearNearest (f : Nat → Nat) (np : Nat) (part : Rat → Rat) (j : Nat) : Prop :=
  j < np ∧ (∀ k, k < np → k ≠ j → (f j : Rat) < part (f k)) ∧ (f j : Rat) < part 2147483647

end Nx
