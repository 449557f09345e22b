import Verif.Model.UniformSampler
import Mathlib.Analysis.SpecialFunctions.Log.Basic
import Mathlib.Analysis.Real.Sqrt

/-!
# Model of the sampling of normal variates: `src/nx_gaussian_sampler.c`

The 32 bit numbers that the uniform sampler will deliver are a list. The arithmetic of `float` and of `double` is exact here,
and `sqrt` and `log` are the real functions; with this, `nx_gaussian_sampler_sample_s` and `nx_gaussian_sampler_sample_d` have
the same text, as both of them use `nx_uniform_sampler_sample_s`.
-/

namespace Nx

/-- A number that is stored: a real number or not a number. -/
inductive GVal where
  | val (x : ℝ)
  | nan

/-- How a call ends: it returns, it asks for more random numbers than are given, or it has undefined behaviour. -/
inductive GRun (α : Type) where
  | done (a : α)
  | starved
  | ub

/-- `v = 2.0f * u - 1.0f`, `src/nx_gaussian_sampler.c:128-129`. -/
def polarCoordOf (a : BitVec 32) : ℚ := 2 * ((sampleS a : ℚ) / 4294967296) - 1

/-- `s = v1 * v1 + v2 * v2`, `src/nx_gaussian_sampler.c:131`. -/
def polarNorm (v : ℚ × ℚ) : ℚ := v.1 * v.1 + v.2 * v.2

/-- The loop `do … while (s >= 1)`, `src/nx_gaussian_sampler.c:124-132`, `142-150`, `169-177` and `187-195`: the point that is
accepted and what is left of the numbers. -/
def polarDraw : List (BitVec 32) → Option ((ℚ × ℚ) × List (BitVec 32))
  | a :: b :: vs =>
    if 1 ≤ polarNorm (polarCoordOf a, polarCoordOf b) then polarDraw vs
    else some ((polarCoordOf a, polarCoordOf b), vs)
  | _ => none

/-- `sigma * sqrt(-2 * log(s) / s) * v + mean` for real numbers, `src/nx_gaussian_sampler.c:134-137` and `152`. -/
noncomputable def polarReal (mean sigma s v : ℝ) : ℝ := sigma * Real.sqrt (-2 * Real.log s / s) * v + mean

/-- The value that is stored: for `s = 0` the logarithm is minus infinity, the quotient and the root are infinite, and the
product of infinity with `v = 0` is not a number. -/
noncomputable def polarVal (mean sigma : ℝ) (s v : ℚ) : GVal :=
  if s = 0 then .nan else .val (polarReal mean sigma s v)

/-- `*s_ptr = x` for the pointer `samples + p`. -/
def storeSample (mem : List GVal) (p : Nat) (x : GVal) : Option (List GVal) :=
  if p < mem.length then some (mem.set p x) else none

/-- The end of `nx_gaussian_sampler_sample_s`, `src/nx_gaussian_sampler.c:141-153`, and of `_sample_d`, `186-198`. -/
noncomputable def gaussLast (mean sigma : ℝ) (n i : Int) (p : Nat) (mem : List GVal) (vs : List (BitVec 32)) :
    GRun (List GVal × List (BitVec 32)) :=
  if i < n then
    match polarDraw vs with
    | none => .starved
    | some (v, rest) =>
      match storeSample mem p (polarVal mean sigma (polarNorm v) v.1) with
      | none => .ub
      | some mem' => .done (mem', rest)
  else .done (mem, vs)

/-- The loop over pairs and what follows, `src/nx_gaussian_sampler.c:121-153` and `166-198`. -/
noncomputable def gaussLoop (mean sigma : ℝ) (n i : Int) (p : Nat) (mem : List GVal) (vs : List (BitVec 32)) :
    GRun (List GVal × List (BitVec 32)) :=
  if i < n - 1 then
    match polarDraw vs with
    | none => .starved
    | some (v, rest) =>
      match storeSample mem p (polarVal mean sigma (polarNorm v) v.1) with
      | none => .ub
      | some mem1 =>
        match storeSample mem1 (p + 1) (polarVal mean sigma (polarNorm v) v.2) with
        | none => .ub
        | some mem2 => gaussLoop mean sigma n (i + 2) (p + 2) mem2 rest
  else gaussLast mean sigma n i p mem vs
termination_by (n - i).toNat

/-- `nx_gaussian_sampler_sample_s`, `src/nx_gaussian_sampler.c:111-154`, and `nx_gaussian_sampler_sample_d`, `156-199`: the
memory `samples` points to, before and after, and what is left of the numbers. `n - 1` overflows for the smallest `int`. -/
noncomputable def gaussSample (vs : List (BitVec 32)) (n : Int) (mem : List GVal) (mean sigma : ℝ) :
    GRun (List GVal × List (BitVec 32)) :=
  if n - 1 < -2147483648 then .ub else gaussLoop mean sigma n 0 0 mem vs

/-! ## Who owns the uniform sampler -/

/-- The samplers: those that are alive, with the uniform sampler of each Gaussian one, and the next fresh address. -/
structure GHeap where
  uniform : List Nat
  gaussian : List (Nat × Nat)
  next : Nat

/-- `nx_uniform_sampler_new`, `src/nx_uniform_sampler.c:61-67`. -/
def uniformNew (h : GHeap) : Nat × GHeap := (h.next, { h with uniform := h.next :: h.uniform, next := h.next + 1 })

/-- `nx_uniform_sampler_free`, `src/nx_uniform_sampler.c:77-82`, for a pointer that is not null. -/
def uniformFree (u : Nat) (h : GHeap) : Option GHeap :=
  if u ∈ h.uniform then some { h with uniform := h.uniform.erase u } else none

/-- `nx_gaussian_sampler_new`, `src/nx_gaussian_sampler.c:56-67`. -/
def gaussNew (u : Option Nat) (h : GHeap) : Nat × GHeap :=
  match u with
  | some u => (h.next, { h with gaussian := (h.next, u) :: h.gaussian, next := h.next + 1 })
  | none =>
    let h' := (uniformNew { h with next := h.next + 1 }).2
    (h.next, { h' with gaussian := (h.next, h.next + 1) :: h'.gaussian })

/-- `nx_gaussian_sampler_free`, `src/nx_gaussian_sampler.c:76-82`, for a pointer that is not null. -/
def gaussFree (g : Nat) (h : GHeap) : Option GHeap :=
  match h.gaussian.find? (fun x => x.1 == g) with
  | none => none
  | some x =>
    match uniformFree x.2 h with
    | none => none
    | some h' => some { h' with gaussian := h'.gaussian.erase x }

end Nx
