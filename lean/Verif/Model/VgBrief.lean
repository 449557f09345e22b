import Verif.Model.BriefRandom

/-!
# Model of variables of the class `VGBriefExtractor`: `include/virg/nexus/vg_brief_extractor.hpp`, `src/vg_brief_extractor.cc`

A variable is a `std::shared_ptr` of an extractor; an extractor is freed when it is in no variable any more. The class declares its
destructor (`vg_brief_extractor.hpp:41`), so that it has no moves: variables always hold an extractor. `none` means that the drawing of
tests does not end (C143).
-/

namespace Nx

/-- Extractors and variables are named by the order of their creation. -/
structure VbWorld where
  /-- the extractors; `none` if freed -/
  objs : List (Option Brief)
  /-- `m_be`, `include/virg/nexus/vg_brief_extractor.hpp:63`; `none` after the destructor -/
  vars : List (Option Nat)
deriving DecidableEq, Repr

def vbVar (w : VbWorld) (v : Nat) : Res Nat :=
  match w.vars[v]? with
  | some (some q) => .ok q
  | _ => .ub

def vbObj (w : VbWorld) (q : Nat) : Res Brief :=
  match w.objs[q]? with
  | some (some be) => .ok be
  | _ => .ub

/-- `std::shared_ptr` lets go; `nx_brief_extractor_free`, `src/nx_brief_extractor.c:74-80`, for the last one. -/
def vbLet (w : VbWorld) (q : Nat) : Res VbWorld :=
  if some q ∈ w.vars then .ok w
  else do
    let _ ← vbObj w q
    pure { w with objs := w.objs.set q none }

/-- A variable gets another value (`none`: it is destroyed). -/
def vbPut (w : VbWorld) (v : Nat) (h : Option Nat) : Res VbWorld := do
  let old ← vbVar w v
  vbLet { w with vars := w.vars.set v h } old

/-- `VGBriefExtractor::randomize_with_seed`, `include/virg/nexus/vg_brief_extractor.hpp:66-70`. -/
def vbSeed (gen : BitVec 32 → List (BitVec 32)) (w : VbWorld) (v : Nat) (seed : BitVec 32) : Res (Option VbWorld) := do
  let q ← vbVar w v
  let be ← vbObj w q
  match ← briefSeeded (gen seed) be with
  | none => pure none
  | some be => pure (some { w with objs := w.objs.set q (some be) })

/-- `VGBriefExtractor::pick_good_seed`, `src/vg_brief_extractor.cc:34-43`. -/
def vbPick (gen : BitVec 32 → List (BitVec 32)) (w : VbWorld) (v : Nat) : Res (Option VbWorld) := do
  let q ← vbVar w v
  let be ← vbObj w q
  match ← briefGood gen be with
  | none => pure none
  | some be => pure (some { w with objs := w.objs.set q (some be) })

/-- Calls of the user, with the time for those that read the clock. -/
inductive VbOp where
  /-- `VGBriefExtractor(n_octets, radius)` -/
  | make (now : BitVec 32) (n r : Int)
  /-- the implicit copy constructor -/
  | copy (s : Nat)
  /-- the implicit assignment -/
  | assign (v s : Nat)
  | resize (v : Nat) (now : BitVec 32) (n r : Int)
  | seed (v : Nat) (s : BitVec 32)
  /-- `VGBriefExtractor::randomize` -/
  | random (v : Nat) (now : BitVec 32)
  /-- the destructor -/
  | drop (v : Nat)
deriving DecidableEq, Repr

/-- One call: `src/vg_brief_extractor.cc:45-59`, `include/virg/nexus/vg_brief_extractor.hpp:66-76`; the clock is read in
`nx_brief_extractor_randomize`, `src/nx_brief_extractor.c:133-139`. -/
def vbStep (gen : BitVec 32 → List (BitVec 32)) (w : VbWorld) : VbOp → Res (Option VbWorld)
  | .make now n r => do
    match ← briefSized (gen now) briefAlloc n r with
    | none => pure none
    | some be => vbPick gen { objs := w.objs ++ [some be], vars := w.vars ++ [some w.objs.length] } w.vars.length
  | .copy s => do
    let q ← vbVar w s
    pure (some { w with vars := w.vars ++ [some q] })
  | .assign v s => do
    let q ← vbVar w s
    let w ← vbPut w v (some q)
    pure (some w)
  | .resize v now n r => do
    match ← briefSized (gen now) briefAlloc n r with
    | none => pure none
    | some be =>
      let w ← vbPut { w with objs := w.objs ++ [some be] } v (some w.objs.length)
      vbPick gen w v
  | .seed v s => vbSeed gen w v s
  | .random v now => vbSeed gen w v now
  | .drop v => do
    let w ← vbPut w v none
    pure (some w)

/-- A program. -/
def vbProg (gen : BitVec 32 → List (BitVec 32)) (w : VbWorld) : List VbOp → Res (Option VbWorld)
  | [] => .ok (some w)
  | op :: ops => do
    match ← vbStep gen w op with
    | none => pure none
    | some w => vbProg gen w ops

end Nx
