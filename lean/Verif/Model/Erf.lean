import Mathlib.Analysis.SpecialFunctions.Exp

/-!
# Model of the error function

`src/nx_math.c:31-54`, with real numbers for `double` and the exponential function for `exp`.
-/

namespace Nx

/-- `nx_erf`, `src/nx_math.c:32-54`. -/
noncomputable def nxErf (x : ℝ) : ℝ :=
  let a1 : ℝ := 0.254829592
  let a2 : ℝ := -0.284496736
  let a3 : ℝ := 1.421413741
  let a4 : ℝ := -1.453152027
  let a5 : ℝ := 1.061405429
  let p : ℝ := 0.3275911
  let sign : ℝ := if x < 0 then -1 else 1
  let x := |x|
  let t := 1 / (1 + p * x)
  let y := 1 - (((((a5 * t + a4) * t) + a3) * t + a2) * t + a1) * t * Real.exp (-x * x)
  sign * y

end Nx
