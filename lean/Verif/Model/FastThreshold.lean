import Verif.Core

/-!
# Model of the adaptive FAST threshold, `src/nx_fast_detector.c:347-365`
-/

namespace Nx

/-- The value fits a 32-bit `int`; arithmetic leaving this range is undefined. -/
abbrev InI32 (x : Int) : Prop := -2147483648 ≤ x ∧ x ≤ 2147483647

/-- `nx_min_i`, `include/virg/nexus/nx_math.h:56-59`. -/
def minI (x y : Int) : Int := if x < y then x else y

/-- `nx_max_i`, `include/virg/nexus/nx_math.h:71-74`. -/
def maxI (x y : Int) : Int := if x > y then x else y

/-- A limit `(factor * max_n_keys) >> 10`, `src/nx_fast_detector.c:351-353`; the
shift of a negative number is taken to be arithmetic. -/
def keyLimit (factor maxKeys : Int) : Res Int :=
  if InI32 (factor * maxKeys) then .ok (factor * maxKeys / 1024) else .ub

/-- The new threshold, `src/nx_fast_detector.c:355-361`. -/
def adaptedThreshold (t nKeys high low veryLow : Int) : Res Int :=
  if nKeys ≥ high then
    if InI32 (t + 3) then .ok (minI 250 (t + 3)) else .ub
  else if nKeys ≤ veryLow then
    if InI32 (t - 3) then .ok (maxI 5 (t - 3)) else .ub
  else if nKeys ≤ low then
    if InI32 (t - 1) then .ok (maxI 5 (t - 1)) else .ub
  else .ok t

/-- `nx_fast_detector_adapt_threshold`, `src/nx_fast_detector.c:347-365`: the new
value of `detector->threshold`. -/
def adaptThreshold (t nKeys maxKeys : Int) : Res Int := do
  let high ← keyLimit 1014 maxKeys
  let low ← keyLimit 921 maxKeys
  let veryLow ← keyLimit 716 maxKeys
  let t ← adaptedThreshold t nKeys high low veryLow
  if t ≥ 5 then (if t ≤ 250 then pure t else .fatal) else .fatal

/-- A sequence of adaptations (number of keypoints found, number requested). -/
def adaptRun (t : Int) : List (Int × Int) → Res Int
  | [] => .ok t
  | (n, m) :: h => do
    let t ← adaptThreshold t n m
    adaptRun t h

end Nx
