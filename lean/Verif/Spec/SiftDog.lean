import Mathlib.Algebra.Order.Field.Basic

/-!
# Specification of the search for extrema
-/

namespace Nx

section
variable {K : Type} [Field K] [LinearOrder K]

/-- The value at `x`, `y` is above its 26 neighbours in the three images. -/
def DogMax (fm f fp : Nat → Nat → K) (x y : Nat) : Prop :=
  ∀ dx, dx < 3 → ∀ dy, dy < 3 → fm (x + dx - 1) (y + dy - 1) < f x y ∧ fp (x + dx - 1) (y + dy - 1) < f x y ∧
    (dx = 1 ∧ dy = 1 ∨ f (x + dx - 1) (y + dy - 1) < f x y)

/-- The value at `x`, `y` is below its 26 neighbours in the three images. -/
def DogMin (fm f fp : Nat → Nat → K) (x y : Nat) : Prop :=
  ∀ dx, dx < 3 → ∀ dy, dy < 3 → f x y < fm (x + dx - 1) (y + dy - 1) ∧ f x y < fp (x + dx - 1) (y + dy - 1) ∧
    (dx = 1 ∧ dy = 1 ∨ f x y < f (x + dx - 1) (y + dy - 1))

/-- Second derivatives by differences. -/
def dogXX (f : Nat → Nat → K) (x y : Nat) : K := f (x - 1) y - 2 * f x y + f (x + 1) y
def dogYY (f : Nat → Nat → K) (x y : Nat) : K := f x (y - 1) - 2 * f x y + f x (y + 1)
def dogXY (f : Nat → Nat → K) (x y : Nat) : K :=
  (f (x + 1) (y + 1) - f (x - 1) (y + 1) - f (x + 1) (y - 1) + f (x - 1) (y - 1)) / 4

/-- The condition on the second derivatives: `r * trace ^ 2 < (r + 1) ^ 2 * determinant`. -/
def EdgeOk (r : K) (f : Nat → Nat → K) (x y : Nat) : Prop :=
  r * (dogXX f x y + dogYY f x y) ^ 2 < (r + 1) ^ 2 * (dogXX f x y * dogYY f x y - dogXY f x y ^ 2)

/-- A candidate: above 0.8 of the threshold, an extremum in space and scale, and not on an edge. -/
def Candidate (thr r : K) (fm f fp : Nat → Nat → K) (x y : Nat) : Prop :=
  4 / 5 * thr < |f x y| ∧ (0 < f x y ∧ DogMax fm f fp x y ∨ f x y < 0 ∧ DogMin fm f fp x y) ∧ EdgeOk r f x y

instance (fm f fp : Nat → Nat → K) (x y : Nat) : Decidable (DogMax fm f fp x y) := by unfold DogMax; infer_instance
instance (fm f fp : Nat → Nat → K) (x y : Nat) : Decidable (DogMin fm f fp x y) := by unfold DogMin; infer_instance
instance (r : K) (f : Nat → Nat → K) (x y : Nat) : Decidable (EdgeOk r f x y) := by unfold EdgeOk; infer_instance
instance (thr r : K) (fm f fp : Nat → Nat → K) (x y : Nat) : Decidable (Candidate thr r fm f fp x y) := by
  unfold Candidate; infer_instance

end

end Nx
