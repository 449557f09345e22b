/-!
# Shared vocabulary

Outcomes of C functions, bytes, C strings.
-/

namespace Nx

/-- A byte as C's `unsigned char`/`uint8_t` (a `char` is the same 8 bits). -/
abbrev Byte := UInt8

/-- Byte sequences: stream contents, buffers, and C strings without their
terminating zero. -/
abbrev Bytes := List UInt8

/-- Outcome of running a C function.

* `ok a`  : returned normally with observable result `a`;
* `fatal` : the process was terminated by `NX_FATAL`/`NX_ASSERT`
  (`include/virg/nexus/nx_log.h`, `include/virg/nexus/nx_assert.h:32-88`);
* `ub`    : undefined behaviour was reached (out-of-bounds access, use after
  free, signed overflow, ...). -/
inductive Res (α : Type) where
  | ok (a : α)
  | fatal
  | ub
deriving DecidableEq, Repr

namespace Res

/-- Sequencing of C statements: stop at the first abort or undefined behaviour. -/
def bind {α β : Type} (x : Res α) (f : α → Res β) : Res β :=
  match x with
  | ok a => f a
  | fatal => fatal
  | ub => ub

instance : Monad Res where
  pure := Res.ok
  bind := Res.bind

/-- The result is a normal return. -/
def IsOk {α : Type} : Res α → Prop
  | ok _ => True
  | _ => False

@[simp] theorem ok_bind {α β : Type} (a : α) (f : α → Res β) : (Res.ok a >>= f) = f a := rfl
@[simp] theorem fatal_bind {α β : Type} (f : α → Res β) : ((Res.fatal : Res α) >>= f) = .fatal := rfl
@[simp] theorem ub_bind {α β : Type} (f : α → Res β) : ((Res.ub : Res α) >>= f) = .ub := rfl
@[simp] theorem pure_eq {α : Type} (a : α) : (pure a : Res α) = .ok a := rfl

theorem bind_eq_ok {α β : Type} {x : Res α} {f : α → Res β} {b : β} :
    (x >>= f) = .ok b ↔ ∃ a, x = .ok a ∧ f a = .ok b := by
  cases x <;> simp

end Res

/-- Writing byte string literals in examples: the code points of an ASCII literal. -/
def bytesOf (s : String) : Bytes := s.toList.map (fun c => UInt8.ofNat c.toNat)

/-- A C string: no embedded zero byte. -/
def CStr (s : Bytes) : Prop := (0 : UInt8) ∉ s

instance (s : Bytes) : Decidable (CStr s) := by unfold CStr; infer_instance

/-- Reading element `i` of an array object; outside the object it is undefined
behaviour. -/
def readAt {α : Type} (a : List α) (i : Nat) : Res α :=
  match a[i]? with
  | some x => .ok x
  | none => .ub

theorem readAt_ok {α : Type} {a : List α} {i : Nat} (h : i < a.length) :
    readAt a i = .ok a[i] := by
  simp [readAt, h]

/-- Writing element `i` of an array object; outside the object it is undefined
behaviour. -/
def writeAt {α : Type} (a : List α) (i : Nat) (x : α) : Res (List α) :=
  if i < a.length then .ok (a.set i x) else .ub

theorem writeAt_ok {α : Type} {a : List α} {i : Nat} (x : α) (h : i < a.length) :
    writeAt a i x = .ok (a.set i x) := by
  simp [writeAt, h]

/-- Storing consecutive elements into an array object, starting at `pos`; outside
the object it is undefined behaviour. -/
def writeBlock {α : Type} (a : List α) (pos : Nat) (xs : List α) : Res (List α) :=
  if pos + xs.length ≤ a.length then .ok (a.take pos ++ xs ++ a.drop (pos + xs.length)) else .ub

theorem writeBlock_ok {α : Type} {a : List α} {pos : Nat} (xs : List α)
    (h : pos + xs.length ≤ a.length) :
    writeBlock a pos xs = .ok (a.take pos ++ xs ++ a.drop (pos + xs.length)) := by
  simp [writeBlock, h]

end Nx
