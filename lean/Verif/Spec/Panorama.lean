import Mathlib.Algebra.Order.Ring.Rat

/-! # Vocabulary for networks of images -/

namespace Nx

/-- What is used of the addition of `double`: it is monotone, it does not decrease, and a sum with the largest number is not
below it. The exact addition has these properties, and one that is the rounded addition of numbers that are `double`
(`c146_added`). -/
structure RoundedAdd (add : Rat → Rat → Rat) (big : Rat) : Prop where
  mono : ∀ a b w, a ≤ b → add a w ≤ add b w
  infl : ∀ a w, 0 ≤ a → 0 ≤ w → a ≤ add a w
  top : big ≤ add 0 big
  pos : 0 < big

/-- `c` is the length of a walk from `src` to a node, summed up from `src` on; an edge from `u` to `v` has length `w u v` and there is none if
that is negative. -/
inductive WalkCost (add : Rat → Rat → Rat) (w : Nat → Nat → Rat) (n src : Nat) : Nat → Rat → Prop
  | start : WalkCost add w n src src 0
  | step {u v : Nat} {c : Rat} : WalkCost add w n src u c → v < n → 0 ≤ w u v → WalkCost add w n src v (add c (w u v))

/-- Following `next` from a node one arrives at `src`, along edges with the length `c` together. -/
inductive TreeCost (add : Rat → Rat → Rat) (w : Nat → Nat → Rat) (src : Nat) (next : List Int) : Nat → Rat → Prop
  | root : TreeCost add w src next src 0
  | step {u v : Nat} {c : Rat} : TreeCost add w src next u c → v ≠ src → next[v]? = some (u : Int) → 0 ≤ w u v →
      TreeCost add w src next v (add c (w u v))

/-- The matrix of weights. -/
def HasWeights (weights : List Rat) (n : Nat) (w : Nat → Nat → Rat) : Prop := ∀ u v, u < n → v < n → weights[u * n + v]? = some (w u v)

end Nx
