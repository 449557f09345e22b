import Mathlib.Algebra.Order.Field.Basic
import Mathlib.Algebra.Order.Floor.Ring

/-!
# Specification of the orientations of SIFT keypoints
-/

namespace Nx

section
variable {K : Type} [Field K] [LinearOrder K]

/-- Mean of three neighbours on the circle of 36 bins. -/
def mean3 (f : Nat → K) (b : Nat) : K := (f ((b + 35) % 36) + f b + f ((b + 1) % 36)) / 3

/-- Repeated means. -/
def means : Nat → (Nat → K) → Nat → K
  | 0, f => f
  | n + 1, f => mean3 (means n f)

/-- The bins of a histogram are stored behind the first element. -/
def Bins (hist : List K) (f : Nat → K) : Prop := hist.length = 38 ∧ ∀ i, i < 36 → hist[i + 1]? = some (f i)

end

end Nx
