import Verif.Core

/-!
# Model of allocation and growing arrays, `src/nx_alloc.c`, `include/virg/nexus/nx_alloc.h`

Simplifications. `malloc` is a parameter from the number of bytes to a block or `NULL`; blocks are lists of bytes and
have no addresses. Log messages are not modelled. `size_t` has 64 bits. The elements of a growing array are values.
-/

namespace Nx

/-- `malloc`: a block with arbitrary contents, or `NULL`. -/
abbrev Malloc := Nat → Option (List Byte)

/-- The product of two values of type `size_t`. -/
def mulSize (a b : Nat) : Nat := a * b % 2 ^ 64

/-- A value of type `int` as `size_t`. -/
def toSize (n : Int) : Nat := (n % 2 ^ 64).toNat

/-- `nx_malloc`, `src/nx_alloc.c:61-71`. -/
def nxMalloc (malloc : Malloc) (sz : Nat) : Option (List Byte) := malloc sz

/-- `nx_xmalloc`, `src/nx_alloc.c:84-94`. -/
def nxXmalloc (malloc : Malloc) (sz : Nat) : Res (Option (List Byte)) :=
  let ptr := malloc sz
  if sz ≠ 0 ∧ ptr = none then .fatal else .ok ptr

/-- `memset(ptr, 0, length)`. -/
def memset0 (ptr : List Byte) (length : Nat) : Res (List Byte) :=
  if length ≤ ptr.length then .ok (List.replicate length 0 ++ ptr.drop length) else .ub

/-- `nx_calloc`, `src/nx_alloc.c:73-82`. -/
def nxCalloc (malloc : Malloc) (nMemb sz : Nat) : Res (Option (List Byte)) :=
  let length := mulSize nMemb sz
  match nxMalloc malloc length with
  | some ptr => do
    let ptr ← memset0 ptr length
    pure (some ptr)
  | none => .ok none

/-- The end of `nx_xcalloc`, `src/nx_alloc.c:99-102`. -/
def xcallocEnd (nMemb sz : Nat) (ptr : Option (List Byte)) : Res (Option (List Byte)) :=
  if nMemb ≠ 0 ∧ sz ≠ 0 ∧ ptr = none then .fatal else .ok ptr

/-- `nx_xcalloc`, `src/nx_alloc.c:96-103`. -/
def nxXcalloc (malloc : Malloc) (nMemb sz : Nat) : Res (Option (List Byte)) := do
  let ptr ← nxCalloc malloc nMemb sz
  xcallocEnd nMemb sz ptr

/-- `NX_NEW(n, type)`, `include/virg/nexus/nx_alloc.h:52`, with `n` an `int` and `sz` the size of the type. -/
def nxNew (malloc : Malloc) (n : Int) (sz : Nat) : Res (Option (List Byte)) :=
  nxXmalloc malloc (mulSize (toSize n) sz)

/-- A growing array: its elements, uninitialised ones are `none`, its size and capacity; `moved` counts the elements
that `realloc` has moved at most, `calls` counts its calls. -/
structure GrowArr (α : Type) where
  elems : List (Option α)
  size : Nat
  capacity : Nat
  moved : Nat
  calls : Nat
deriving DecidableEq, Repr

section
variable {α : Type}

/-- An empty array, as in `nx_csv_data_alloc`, `src/nx_csv_parser.c:148-157`, `nx_csv_record_new`,
`src/nx_csv_parser.c:112-120`, and `nx_data_column_alloc`, `src/nx_data_frame.c:74-88`. -/
def growNew : GrowArr α := ⟨[], 0, 0, 0, 0⟩

/-- `NX_ENSURE_CAPACITY`, `include/virg/nexus/nx_alloc.h:65-73`; `int` overflow in `((cap)+8)*3` is undefined. -/
def growEnsure (a : GrowArr α) (req : Nat) : Res (GrowArr α) :=
  if a.capacity < req then
    if (a.capacity + 8) * 3 > 2147483647 then .ub
    else
      let cap := if (a.capacity + 8) * 3 / 2 < req then req else (a.capacity + 8) * 3 / 2
      .ok { a with
        elems := a.elems ++ List.replicate (cap - a.capacity) none
        capacity := cap
        moved := a.moved + a.capacity
        calls := a.calls + 1 }
  else .ok a

/-- `x[size++] = y` at the end of an array. -/
def growAlloc (a : GrowArr α) (x : α) : Res (GrowArr α) := do
  let e ← writeAt a.elems a.size (some x)
  pure { a with elems := e, size := a.size + 1 }

/-- `nx_csv_data_add_record`, `src/nx_csv_parser.c:170-174`, `nx_csv_record_add_field_from_token`,
`src/nx_csv_parser.c:134-139`. -/
def growPush (a : GrowArr α) (x : α) : Res (GrowArr α) := do
  let a ← growEnsure a (a.size + 1)
  growAlloc a x

/-- Elements added one after the other. -/
def growPushAll : List α → GrowArr α → Res (GrowArr α)
  | [], a => .ok a
  | x :: xs, a => do
    let a ← growPush a x
    growPushAll xs a

end

end Nx
