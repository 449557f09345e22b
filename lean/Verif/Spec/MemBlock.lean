import Verif.Model.MemBlock

/-!
# Specification vocabulary for memory blocks

What a user may do, which states they can reach, and what they see.
-/

namespace Nx

/-- Block number `b` exists and has not been freed. -/
def Alive (w : MWorld) (b : Nat) : Prop := ∃ m, w.blocks[b]? = some (some m)

/-- The rules a user has to follow: name live blocks only, wrap no more bytes than
the memory has, do not copy a block onto itself. -/
def Allowed (w : MWorld) : MOp → Prop
  | .new _ => True
  | .reserve b _ | .resize b _ | .release b | .copy0 b | .setZero b | .free b => Alive w b
  | .wrap b data sz _ => Alive w b ∧ sz ≤ data.length
  | .swap b c => Alive w b ∧ Alive w c
  | .copy d s => Alive w d ∧ Alive w s ∧ d ≠ s

/-- States reached from the empty program by allowed calls. -/
inductive MReach : MWorld → Prop
  | init : MReach { heap := [], blocks := [] }
  | step {w w' op} : MReach w → Allowed w op → mStep w op = .ok w' → MReach w'

/-- The bytes a user sees at `ptr[0 .. size)` of block `b`; `none` if the block is
gone or any of that memory may not be accessed. -/
def visible (w : MWorld) (b : Nat) : Option (List (Option Byte)) :=
  match w.blocks[b]? with
  | some (some m) =>
    if m.size = 0 then some []
    else
      match m.ptr with
      | some p =>
        match w.heap[p]? with
        | some (some c) => if m.size ≤ c.data.length then some (c.data.take m.size) else none
        | _ => none
      | none => none
  | _ => none

/-- What a call must do to what the user sees: `v` and `v'` are the visible bytes
before and after, `n` is the number of blocks created before. -/
def OpEffect (n : Nat) (v v' : Nat → Option (List (Option Byte))) : MOp → Prop
  | .new k => (∃ l, v' n = some l ∧ l.length = k) ∧ ∀ c, c ≠ n → v' c = v c
  | .reserve _ _ => ∀ c, v' c = v c
  | .resize b k => (∃ l l', v b = some l ∧ v' b = some l' ∧ l'.length = k ∧
      l'.take (min l.length k) = l.take (min l.length k)) ∧ ∀ c, c ≠ b → v' c = v c
  | .release b => v' b = some [] ∧ ∀ c, c ≠ b → v' c = v c
  | .wrap b data sz _ => v' b = some ((data.take sz).map some) ∧ ∀ c, c ≠ b → v' c = v c
  | .swap b c => v' b = v c ∧ v' c = v b ∧ ∀ d, d ≠ b → d ≠ c → v' d = v d
  | .copy d s => v' d = v s ∧ ∀ c, c ≠ d → v' c = v c
  | .copy0 s => v' n = v s ∧ ∀ c, c ≠ n → v' c = v c
  | .setZero b => (∃ l, v b = some l ∧ v' b = some (List.replicate l.length (some 0))) ∧
      ∀ c, c ≠ b → v' c = v c
  | .free b => v' b = none ∧ ∀ c, c ≠ b → v' c = v c

/-- Live allocations that the library made or took over. -/
def libraryOwned (h : MHeap) (p : Nat) : Prop := ∃ c, h[p]? = some (some c) ∧ c.user = false

end Nx
