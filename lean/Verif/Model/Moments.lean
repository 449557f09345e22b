import Mathlib.Analysis.Real.Sqrt

/-!
# Model of the mean and the standard deviation, `src/nx_statistics.c`

Over the real numbers, without rounding. The order statistics of the same two functions are in `Verif.Model.Statistics`. `qsort` is an
arbitrary function (that properties assume to permute).
-/

namespace Nx

/-- The fields `n`, `mean` and `stdev` of `struct NXStatistics1D`, `include/virg/nexus/nx_statistics.h:33-43`. -/
structure Moments where
  n : Nat
  mean : ℝ
  stdev : ℝ

/-- The sum of the first loop, `src/nx_statistics.c:85-86` and `155-156`: `mean` is zero before. -/
noncomputable def momSum : List ℝ → ℝ → ℝ
  | [], s => s
  | a :: x, s => momSum x (s + a)

/-- The second loop, `src/nx_statistics.c:99-102` and `171-174`. -/
noncomputable def momSq (mean : ℝ) : List ℝ → ℝ → ℝ
  | [], s => s
  | a :: x, s => momSq mean x (s + (a - mean) * (a - mean))

/-- The part for two or more elements, after sorting, `src/nx_statistics.c:85-105` and `155-177`. -/
noncomputable def momMany (x : List ℝ) : Moments :=
  let mean := momSum x 0 / (x.length : ℝ)
  ⟨x.length, mean, Real.sqrt (momSq mean x 0 / ((x.length : ℝ) - 1))⟩

/-- `nx_dstatistics_1d`, `src/nx_statistics.c:37-105`. -/
noncomputable def dMoments (qsort : List ℝ → List ℝ) (x : List ℝ) : Moments :=
  match x with
  | [] => ⟨0, 0, 0⟩
  | [a] => ⟨1, a, 0⟩
  | _ => momMany (qsort x)

/-- `nx_istatistics_1d`, `src/nx_statistics.c:107-177`: the elements are converted where they are added or subtracted. The sort is of
`int`s whose differences do not overflow. -/
noncomputable def iMoments (qsort : List Int → List Int) (x : List Int) : Moments :=
  match x with
  | [] => ⟨0, 0, 0⟩
  | [a] => ⟨1, a, 0⟩
  | _ => momMany ((qsort x).map (fun a : Int => (a : ℝ)))

end Nx
