import Verif.Model.Fround

/-!
# Model of the mean and the standard deviation in `double`, `src/nx_statistics.c`

As `Model/Moments.lean`, with every result of an operation rounded to `double`; overflow is not modelled. `sqrt` is a parameter, and
`qsort` is an arbitrary function (that properties assume to permute).
-/

namespace Nx

/-- The fields `n`, `mean` and `stdev` of `struct NXStatistics1D`, `include/virg/nexus/nx_statistics.h:33-43`. -/
structure MomentsF where
  n : Nat
  mean : Rat
  stdev : Rat
deriving DecidableEq

/-- The sum of the first loop, `src/nx_statistics.c:85-86` and `155-156`: `mean` is zero before. -/
def sumF : List Rat → Rat → Rat
  | [], s => s
  | a :: x, s => sumF x (f64 (s + a))

/-- The second loop, `src/nx_statistics.c:98-101` and `170-173`. -/
def sqSumF (mean : Rat) : List Rat → Rat → Rat
  | [], s => s
  | a :: x, s => sqSumF mean x (f64 (s + f64 (f64 (a - mean) * f64 (a - mean))))

/-- The part for two or more elements, after sorting, `src/nx_statistics.c:85-105` and `155-177`. The conversions of `n` and `n - 1` are
exact. -/
def momManyF (sqrt : Rat → Rat) (x : List Rat) : MomentsF :=
  let mean := f64 (sumF x 0 / x.length)
  ⟨x.length, mean, sqrt (f64 (sqSumF mean x 0 / (x.length - 1)))⟩

/-- `nx_dstatistics_1d`, `src/nx_statistics.c:37-105`. -/
def dMomentsF (sqrt : Rat → Rat) (qsort : List Rat → List Rat) (x : List Rat) : MomentsF :=
  match x with
  | [] => ⟨0, 0, 0⟩
  | [a] => ⟨1, a, 0⟩
  | _ => momManyF sqrt (qsort x)

/-- `nx_istatistics_1d`, `src/nx_statistics.c:107-177`: the elements are converted where they are added or subtracted, which is exact.
The sort is of `int`s whose differences do not overflow. -/
def iMomentsF (sqrt : Rat → Rat) (qsort : List Int → List Int) (x : List Int) : MomentsF :=
  match x with
  | [] => ⟨0, 0, 0⟩
  | [a] => ⟨1, a, 0⟩
  | _ => momManyF sqrt ((qsort x).map (fun a : Int => (a : Rat)))

/-- The middle of two elements, `src/nx_statistics.c:67-80`. -/
def midF (a b : Rat) : Rat := f64 (f64 (a + b) / 2)

end Nx
