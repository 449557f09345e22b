import Verif.Model.Sfmt

/-!
# The uniform samplers

`src/nx_uniform_sampler.c`: objects that hold a generator, and the one that is shared by the whole program. Allocation does not fail. A
number is given as its 32 bit words, from the lowest.
-/

namespace Nx

/-- The memory of a sampler: freed, allocated but never seeded, or seeded. -/
inductive SmCell where
  | freed
  | raw (mem : List W128)
  | ready (g : Sfmt)

/-- The samplers made so far and `g_uniform_sampler`, `src/nx_uniform_sampler.c:38`. -/
structure SmWorld where
  cells : List SmCell
  glob : Option Nat

/-- The calls. `now` is the value of `time(NULL)` converted to `uint32_t`, `mem` is what the allocated memory held before. -/
inductive SmOp where
  /-- `nx_uniform_sampler_alloc` -/
  | alloc (mem : List W128)
  /-- `nx_uniform_sampler_new` -/
  | new (mem : List W128) (now : BitVec 32)
  /-- `nx_uniform_sampler_new_with_seed` -/
  | newSeed (mem : List W128) (seed : BitVec 32)
  /-- `nx_uniform_sampler_free` -/
  | free (p : Option Nat)
  /-- `nx_uniform_sampler_init_time` -/
  | initTime (i : Nat) (now : BitVec 32)
  /-- `nx_uniform_sampler_init_seed` -/
  | initSeed (i : Nat) (seed : BitVec 32)
  /-- `nx_uniform_sampler_sample32` -/
  | sample32 (i : Nat)
  /-- `nx_uniform_sampler_sample64` -/
  | sample64 (i : Nat)
  /-- `nx_uniform_sampler_sample_s` -/
  | sampleS (i : Nat)
  /-- `nx_uniform_sampler_sample_d` -/
  | sampleD (i : Nat)
  /-- `nx_uniform_sampler_fill32`, on an array of `n` numbers -/
  | fill32 (i n : Nat)
  /-- `nx_uniform_sampler_fill64`, on an array of `n` numbers -/
  | fill64 (i n : Nat)
  /-- `nx_uniform_sampler_instance` -/
  | inst (mem : List W128) (now : BitVec 32)
  /-- `nx_uniform_sampler_instance_free` -/
  | instFree
  /-- `NX_UNIFORM_SAMPLE32`, `include/virg/nexus/nx_uniform_sampler.h:65` -/
  | instSample32 (mem : List W128) (now : BitVec 32)

/-- The numbers given out, each with the sampler that gave it. -/
abbrev SmOut := List (Nat × BitVec 32)

/-- `nx_uniform_sampler_alloc`, `src/nx_uniform_sampler.c:55-59`. -/
def smAlloc (mem : List W128) (w : SmWorld) : SmWorld × Nat :=
  ({ w with cells := w.cells ++ [.raw mem] }, w.cells.length)

/-- `nx_uniform_sampler_init_seed`, `src/nx_uniform_sampler.c:89-92`. -/
def smInit (w : SmWorld) (i : Nat) (seed : BitVec 32) : Res SmWorld :=
  match w.cells[i]? with
  | some (.raw mem) => do
    let g ← initGenRand mem seed
    pure { w with cells := w.cells.set i (.ready g) }
  | some (.ready g) => do
    let g ← initGenRand g.state seed
    pure { w with cells := w.cells.set i (.ready g) }
  | _ => .ub

/-- `nx_uniform_sampler_new`, `src/nx_uniform_sampler.c:61-67`, and `nx_uniform_sampler_new_with_seed`, `:69-75`. -/
def smNew (mem : List W128) (w : SmWorld) (seed : BitVec 32) : Res (SmWorld × Nat) := do
  let r := smAlloc mem w
  let w' ← smInit r.1 r.2 seed
  pure (w', r.2)

/-- `nx_uniform_sampler_free`, `src/nx_uniform_sampler.c:77-82`. -/
def smFree (w : SmWorld) (p : Option Nat) : Res SmWorld :=
  match p with
  | none => .ok w
  | some i =>
    match w.cells[i]? with
    | some (.raw _) => .ok { w with cells := w.cells.set i .freed }
    | some (.ready _) => .ok { w with cells := w.cells.set i .freed }
    | _ => .ub

/-- The generator of a sampler that has been seeded; the memory of the others must not be used. -/
def smGen (w : SmWorld) (i : Nat) : Res Sfmt :=
  match w.cells[i]? with
  | some (.ready g) => .ok g
  | _ => .ub

/-- The generator after a call. -/
def smPut (w : SmWorld) (i : Nat) (g : Sfmt) : SmWorld := { w with cells := w.cells.set i (.ready g) }

/-- `nx_uniform_sampler_sample32`, `src/nx_uniform_sampler.c:94-97`, and `nx_uniform_sampler_sample_s`, `:114-117`, which scales the
number. -/
def smSample32 (w : SmWorld) (i : Nat) : Res (SmWorld × SmOut) := do
  let g ← smGen w i
  let r ← genrand32 g
  pure (smPut w i r.2, [(i, r.1)])

/-- `nx_uniform_sampler_sample64`, `src/nx_uniform_sampler.c:99-102`. -/
def smSample64 (w : SmWorld) (i : Nat) : Res (SmWorld × SmOut) := do
  let g ← smGen w i
  let r ← genrand64 g
  pure (smPut w i r.2, [(i, r.1.extractLsb' 0 32), (i, r.1.extractLsb' 32 32)])

/-- `nx_uniform_sampler_sample_d`, `src/nx_uniform_sampler.c:119-122`, with `sfmt_genrand_res53_mix`, `src/SFMT/SFMT.h:314-321`: two
numbers of 32 bits. -/
def smSampleD (w : SmWorld) (i : Nat) : Res (SmWorld × SmOut) := do
  let g ← smGen w i
  let x ← genrand32 g
  let y ← genrand32 x.2
  pure (smPut w i y.2, [(i, x.1), (i, y.1)])

/-- The 32 bit words of an array. -/
def arrayWords (l : List W128) : List (BitVec 32) := l.flatMap fun a => [a.u0, a.u1, a.u2, a.u3]

/-- `nx_uniform_sampler_fill32`, `src/nx_uniform_sampler.c:104-107`, for `n` numbers, and `nx_uniform_sampler_fill64`, `:109-112`, for half
as many. What the array held before is never read, here it holds zeros. -/
def smFill (w : SmWorld) (i n : Nat) : Res (SmWorld × SmOut) := do
  let g ← smGen w i
  let r ← fillArray32 g (List.replicate (n / 4) ⟨0, 0, 0, 0⟩) n
  pure (smPut w i r.2, (arrayWords r.1).map fun x => (i, x))

/-- `nx_uniform_sampler_instance`, `src/nx_uniform_sampler.c:40-47`. -/
def smInst (mem : List W128) (w : SmWorld) (now : BitVec 32) : Res (SmWorld × Nat) :=
  match w.glob with
  | some i => .ok (w, i)
  | none => do
    let r ← smNew mem w now
    pure ({ r.1 with glob := some r.2 }, r.2)

/-- One call. -/
def smStep (w : SmWorld) : SmOp → Res (SmWorld × SmOut)
  | .alloc mem => .ok ((smAlloc mem w).1, [])
  | .new mem now => do
    let r ← smNew mem w now
    pure (r.1, [])
  | .newSeed mem seed => do
    let r ← smNew mem w seed
    pure (r.1, [])
  | .free p => do
    let w' ← smFree w p
    pure (w', [])
  | .initTime i now => do
    let w' ← smInit w i now
    pure (w', [])
  | .initSeed i seed => do
    let w' ← smInit w i seed
    pure (w', [])
  | .sample32 i => smSample32 w i
  | .sample64 i => smSample64 w i
  | .sampleS i => smSample32 w i
  | .sampleD i => smSampleD w i
  | .fill32 i n => smFill w i n
  | .fill64 i n => smFill w i (2 * n)
  | .inst mem now => do
    let r ← smInst mem w now
    pure (r.1, [])
  | .instFree => do
    let w' ← smFree w w.glob
    pure ({ w' with glob := none }, [])
  | .instSample32 mem now => do
    let r ← smInst mem w now
    smSample32 r.1 r.2

/-- A program. -/
def smRun (w : SmWorld) : List SmOp → Res (SmWorld × SmOut)
  | [] => .ok (w, [])
  | op :: ops => do
    let r ← smStep w op
    let s ← smRun r.1 ops
    pure (s.1, r.2 ++ s.2)

/-- The start of the program. -/
def smStart : SmWorld := ⟨[], none⟩

end Nx
