import Verif.Core

/-!
# Model of the memory that a program has allocated

Only which blocks are allocated is recorded, not what they contain. Addresses are numbers that are never used again.
-/

namespace Nx

/-- The allocated blocks and the next address. -/
structure Mem where
  live : List Nat
  next : Nat
deriving DecidableEq, Repr

/-- `nx_xmalloc`, `src/nx_alloc.c:84-94`, when there is memory. -/
def memAlloc (σ : Mem) : Mem × Nat := (⟨σ.next :: σ.live, σ.next + 1⟩, σ.next)

/-- `nx_free`, `src/nx_alloc.c:114-117`: nothing for `NULL`, undefined for a block that is not allocated. -/
def memFree (σ : Mem) : Option Nat → Res Mem
  | none => .ok σ
  | some p => if p ∈ σ.live then .ok { σ with live := σ.live.erase p } else .ub

/-- An access to a block. -/
def memUse (σ : Mem) (p : Nat) : Res Unit := if p ∈ σ.live then .ok () else .ub

/-- A `const char *` argument: `NULL`, a string of the caller, or a block. -/
inductive MSrc
  | null
  | ext
  | ptr (p : Nat)
deriving DecidableEq, Repr

/-- A pointer as an argument. -/
def MSrc.of : Option Nat → MSrc
  | none => .null
  | some p => .ptr p

/-- The second half of `nx_strredup`, `src/nx_string.c:54-57`. -/
def memDup (σ : Mem) : MSrc → Res (Mem × Option Nat)
  | .null => .ok (σ, none)
  | .ext => .ok ((memAlloc σ).1, some (memAlloc σ).2)
  | .ptr p => do
    memUse σ p
    pure ((memAlloc σ).1, some (memAlloc σ).2)

/-- `nx_strredup`, `src/nx_string.c:50-58`. -/
def memRedup (σ : Mem) (dest : Option Nat) (src : MSrc) : Res (Mem × Option Nat) := do
  let σ ← memFree σ dest
  memDup σ src

end Nx
