import Mathlib.Algebra.Order.Field.Basic
import Mathlib.Algebra.BigOperators.Group.Finset.Basic

/-!
# Specification of SIFT descriptors
-/

namespace Nx

section
variable {K : Type} [Field K] [LinearOrder K]

/-- The triangle of height 1 over `[-1, 1]`. -/
def tent (t : K) : K := max 0 (1 - |t|)

/-- The triangle on the circle of 8 units around the direction `o`; `h` is between 0 and 8. -/
def tent8 (h : K) (o : Nat) : K := tent (h - o) + if o = 0 then tent (h - 8) else 0

/-- The share of a sample at the cell coordinates `px`, `py` and with direction `h` in the
cell of row `r` and column `c` for the direction `o`. -/
def share (px py h : K) (r c o : Nat) : K := tent (py - r) * tent (px - c) * tent8 h o

/-- `v` is `u` divided by its length; the zero vector stays. -/
def UnitOf (u v : List K) : Prop :=
  v.length = u.length ∧ ∃ n : K, 0 ≤ n ∧ n * n = (u.map (fun x => x * x)).sum ∧
    ((n = 0 ∧ v = u) ∨ (0 < n ∧ ∀ i : Nat, v[i]?.map (fun x => x * n) = u[i]?))

end

end Nx
