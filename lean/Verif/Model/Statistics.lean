import Verif.Model.FastThreshold

/-!
# Model of the one-dimensional statistics, `src/nx_statistics.c`

The two functions differ in the element type only: `α` is the type of the elements,
`β` that of the results. `key` gives the order of the elements, as numbers. The mean
and the standard deviation are in `Verif.Model.Moments`. `qsort` is an arbitrary
function (that properties assume to sort).
-/

namespace Nx

/-- `struct NXStatistics1D`, `include/virg/nexus/nx_statistics.h:33-43`, without mean
and standard deviation. -/
structure Stats (α β : Type) where
  n : Nat
  median : β
  lowerQuartile : β
  upperQuartile : β
  min : α
  max : α
deriving DecidableEq, Repr

/-- What depends on the element type. -/
structure StatsConfig (α β : Type) where
  key : α → Int
  /-- conversion of an element to the type of the results -/
  conv : α → β
  /-- `(a + b) / 2.0` -/
  mid : α → α → Res β
  /-- the initial values of the minimum and the maximum -/
  top : α
  bottom : α

variable {α β : Type}

/-- `(x[i] + x[j]) / 2.0`. -/
def StatsConfig.midAt (c : StatsConfig α β) (x : List α) (i j : Nat) : Res β := do
  let a ← readAt x i
  let b ← readAt x j
  c.mid a b

/-- `x[i]` as a result. -/
def StatsConfig.convAt (c : StatsConfig α β) (x : List α) (i : Nat) : Res β := do
  let a ← readAt x i
  pure (c.conv a)

/-- The median and the quartiles of the sorted array, `src/nx_statistics.c:60-80` and
`130-150`. -/
def StatsConfig.quartiles (c : StatsConfig α β) (n : Nat) (x : List α) : Res (β × β × β) := do
  let h := n / 2
  let hh := h / 2
  if n % 2 = 1 then do
    let m ← c.convAt x h
    if h % 2 = 1 then do
      let l ← c.convAt x hh
      let u ← c.convAt x (h + hh + 1)
      pure (m, l, u)
    else do
      let l ← c.midAt x (hh - 1) hh
      let u ← c.midAt x (h + hh) (h + hh + 1)
      pure (m, l, u)
  else do
    let m ← c.midAt x (h - 1) h
    if h % 2 = 1 then do
      let l ← c.convAt x hh
      let u ← c.convAt x (h + hh)
      pure (m, l, u)
    else do
      let l ← c.midAt x (hh - 1) hh
      let u ← c.midAt x (h + hh - 1) (h + hh)
      pure (m, l, u)

/-- The loop finding minimum and maximum, `src/nx_statistics.c:85-95` and `155-165`. -/
def StatsConfig.minMax (c : StatsConfig α β) : List α → α → α → α × α
  | [], mn, mx => (mn, mx)
  | a :: x, mn, mx => c.minMax x (if c.key a < c.key mn then a else mn) (if c.key a > c.key mx then a else mx)

/-- The part for two or more elements, after sorting, `src/nx_statistics.c:60-95` and
`130-168`. -/
def StatsConfig.sorted (c : StatsConfig α β) (x : List α) : Res (Stats α β) := do
  let q ← c.quartiles x.length x
  let r := c.minMax x c.top c.bottom
  pure ⟨x.length, q.1, q.2.1, q.2.2, r.1, r.2⟩

/-- The configuration of `nx_dstatistics_1d`: `mid` is the (correctly rounded or not)
half of the sum. -/
def doubleStats {δ : Type} (key : δ → Int) (mid : δ → δ → δ) (dblMax negDblMax : δ) : StatsConfig δ δ :=
  ⟨key, id, fun a b => .ok (mid a b), dblMax, negDblMax⟩

/-- `nx_dstatistics_1d`, `src/nx_statistics.c:37-105`, for a non-empty sample. -/
def dStatistics {δ : Type} (c : StatsConfig δ δ) (qsort : List δ → List δ) (x : List δ) : Res (Stats δ δ) :=
  match x with
  | [] => .fatal
  | [a] => .ok ⟨1, a, a, a, a, a⟩
  | _ => c.sorted (qsort x)

/-- The configuration of `nx_istatistics_1d`. The results are doubles that are
multiples of one half: they are represented by twice their value. The sum of two
elements is a sum of `int`s. -/
def intStats : StatsConfig Int Int :=
  ⟨id, fun a => 2 * a, fun a b => if InI32 (a + b) then .ok (a + b) else .ub, 2147483647, -2147483648⟩

/-- `nx_compare_int_incr` (`include/virg/nexus/nx_math.h:100-106`) subtracts: no
difference of two elements may overflow. -/
def diffsFit (x : List Int) : Bool := x.all (fun a => x.all (fun b => decide (InI32 (a - b))))

/-- `nx_istatistics_1d`, `src/nx_statistics.c:107-177`, for a non-empty sample. -/
def iStatistics (qsort : List Int → List Int) (x : List Int) : Res (Stats Int Int) :=
  match x with
  | [] => .fatal
  | [a] => .ok ⟨1, 2 * a, 2 * a, 2 * a, a, a⟩
  | _ => if diffsFit x then intStats.sorted (qsort x) else .ub

end Nx
