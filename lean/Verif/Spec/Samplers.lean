import Verif.Model.Samplers
import Verif.Spec.Sfmt

/-!
# Specification of the uniform samplers

A sampler is its seed and the count of the numbers it has given.
-/

namespace Nx

/-- The sequence of SFMT19937 for a seed: the recurrence of Knuth gives the first 624 numbers, the first one is adjusted to certify the
period. -/
def SeedSeq (seed : BitVec 32) (w : Nat → BitVec 128) : Prop :=
  IsSfmt w ∧ Certified (w 0) ∧ (∀ i, 0 < i → i < 624 → word32 w i = knuthSeq seed i) ∧ (word32 w 0 = seed ∨ word32 w 0 = seed ^^^ 1)

/-- A sampler for its user: freed, never seeded, or the seed, the count of numbers given, and the count of the numbers given since it was
last seeded or used to fill an array. -/
inductive AbsSampler where
  | freed
  | raw
  | at (seed : BitVec 32) (count since : Nat)
deriving DecidableEq

/-- All samplers, and the shared one. -/
structure AbsWorld where
  cells : List AbsSampler
  glob : Option Nat

/-- `n` numbers from the count `k` on, given by the sampler `i`; the 624 numbers made from the seed are not given out. -/
def numbers (W : BitVec 32 → Nat → BitVec 128) (i : Nat) (seed : BitVec 32) (k n : Nat) : SmOut :=
  (List.range n).map fun j => (i, word32 (W seed) (624 + k + j))

/-- Seeding. -/
def absSeed (w : AbsWorld) (i : Nat) (seed : BitVec 32) : Res AbsWorld :=
  match w.cells[i]? with
  | some .raw => .ok { w with cells := w.cells.set i (.at seed 0 0) }
  | some (.at _ _ _) => .ok { w with cells := w.cells.set i (.at seed 0 0) }
  | _ => .ub

/-- Giving `n` numbers one by one. -/
def absDraw (W : BitVec 32 → Nat → BitVec 128) (w : AbsWorld) (i n : Nat) : Res (AbsWorld × SmOut) :=
  match w.cells[i]? with
  | some (.at s k m) => .ok ({ w with cells := w.cells.set i (.at s (k + n) (m + n)) }, numbers W i s k n)
  | _ => .ub

/-- A number of 64 bits is only given after an even count of numbers. -/
def absDraw64 (W : BitVec 32 → Nat → BitVec 128) (w : AbsWorld) (i : Nat) : Res (AbsWorld × SmOut) :=
  match w.cells[i]? with
  | some (.at s k m) =>
    if k % 2 = 0 then .ok ({ w with cells := w.cells.set i (.at s (k + 2) (m + 2)) }, numbers W i s k 2) else .fatal
  | _ => .ub

/-- An array is only filled when the numbers that were made at once are used up, for a size that is a multiple of four and not below
624. -/
def absFill (W : BitVec 32 → Nat → BitVec 128) (w : AbsWorld) (i n : Nat) : Res (AbsWorld × SmOut) :=
  match w.cells[i]? with
  | some (.at s k m) =>
    if m % 624 = 0 ∧ n % 4 = 0 ∧ 624 ≤ n then .ok ({ w with cells := w.cells.set i (.at s (k + n) 0) }, numbers W i s k n) else .fatal
  | _ => .ub

/-- Freeing; a null pointer is ignored. -/
def absFree (w : AbsWorld) : Option Nat → Res AbsWorld
  | none => .ok w
  | some i =>
    match w.cells[i]? with
    | some .raw => .ok { w with cells := w.cells.set i .freed }
    | some (.at _ _ _) => .ok { w with cells := w.cells.set i .freed }
    | _ => .ub

/-- The shared sampler is made at its first use, from the time. -/
def absInst (w : AbsWorld) (now : BitVec 32) : AbsWorld × Nat :=
  match w.glob with
  | some i => (w, i)
  | none => (⟨w.cells ++ [.at now 0 0], some w.cells.length⟩, w.cells.length)

/-- One call. What memory held before allocation plays no role. -/
def absStep (W : BitVec 32 → Nat → BitVec 128) (w : AbsWorld) : SmOp → Res (AbsWorld × SmOut)
  | .alloc _ => .ok ({ w with cells := w.cells ++ [.raw] }, [])
  | .new _ now => .ok ({ w with cells := w.cells ++ [.at now 0 0] }, [])
  | .newSeed _ seed => .ok ({ w with cells := w.cells ++ [.at seed 0 0] }, [])
  | .free p => (absFree w p).bind fun w' => .ok (w', [])
  | .initTime i now => (absSeed w i now).bind fun w' => .ok (w', [])
  | .initSeed i seed => (absSeed w i seed).bind fun w' => .ok (w', [])
  | .sample32 i => absDraw W w i 1
  | .sample64 i => absDraw64 W w i
  | .sampleS i => absDraw W w i 1
  | .sampleD i => absDraw W w i 2
  | .fill32 i n => absFill W w i n
  | .fill64 i n => absFill W w i (2 * n)
  | .inst _ now => .ok ((absInst w now).1, [])
  | .instFree => (absFree w w.glob).bind fun w' => .ok ({ w' with glob := none }, [])
  | .instSample32 _ now => absDraw W (absInst w now).1 (absInst w now).2 1

/-- A program. -/
def absRun (W : BitVec 32 → Nat → BitVec 128) (w : AbsWorld) : List SmOp → Res (AbsWorld × SmOut)
  | [] => .ok (w, [])
  | op :: ops => (absStep W w op).bind fun r => (absRun W r.1 ops).bind fun s => .ok (s.1, r.2 ++ s.2)

/-- The size of the memory of a sampler. -/
def SmOp.Sized : SmOp → Prop
  | .alloc mem | .new mem _ | .newSeed mem _ | .inst mem _ | .instSample32 mem _ => mem.length = 156
  | _ => True

/-- The calls that seed or free the sampler `i`. -/
def SmOp.Resets (glob : Option Nat) (i : Nat) : SmOp → Prop
  | .free p => p = some i
  | .initTime j _ => j = i
  | .initSeed j _ => j = i
  | .instFree => glob = some i
  | _ => False

/-- The calls that seed the sampler `i` with `s`, where `len` samplers exist before. -/
def SmOp.Seeds (len i : Nat) (s : BitVec 32) : SmOp → Prop
  | .new _ now => i = len ∧ now = s
  | .newSeed _ seed => i = len ∧ seed = s
  | .initTime j now => i = j ∧ now = s
  | .initSeed j seed => i = j ∧ seed = s
  | _ => False

/-- A program in which the sampler `i` is neither seeded nor freed. -/
def Untouched (i : Nat) : SmWorld → List SmOp → Prop
  | _, [] => True
  | w, op :: ops => ¬ op.Resets w.glob i ∧ ∀ r, smStep w op = .ok r → Untouched i r.1 ops

/-- The numbers given by the sampler `i`. -/
def givenBy (i : Nat) (out : SmOut) : List (BitVec 32) := (out.filter fun p => p.1 == i).map (·.2)

end Nx
