import Verif.Model.StrIO

/-!
# Model of `src/nx_string_array.c`

String objects live in a heap; an address is an index and a freed object is
`none`. The element array is modelled with its allocation size (`capacity`) and
uninitialised slots. The allocation of the struct itself is not modelled.
-/

namespace Nx

/-- Heap of string objects; index = address, `none` = freed. -/
abbrev Heap := List (Option Bytes)

/-- `nx_free(ptr)` on a string pointer, `src/nx_alloc.c:114-117`: freeing NULL is
a no-op, freeing anything not allocated is undefined. -/
def heapFree (h : Heap) : Option Nat → Res Heap
  | none => .ok h
  | some p =>
    match h[p]? with
    | some (some _) => .ok (h.set p none)
    | _ => .ub

/-- A `const char *` argument: NULL, a string of the caller, or a pointer to a
heap object (for instance one returned by `nx_string_array_get`). -/
inductive Src where
  | null
  | ext (s : Bytes)
  | ptr (p : Nat)
deriving DecidableEq, Repr

/-- The pointer argument obtained from a slot value. -/
def Src.ofSlot : Option Nat → Src
  | none => .null
  | some p => .ptr p

/-- Reading the C string behind an argument; a dangling pointer is undefined. -/
def Src.read (h : Heap) : Src → Res (Option Bytes)
  | .null => .ok none
  | .ext s => .ok (some s)
  | .ptr p =>
    match h[p]? with
    | some (some s) => .ok (some s)
    | _ => .ub

/-- `nx_strredup(&dest, src)`, `src/nx_string.c:50-58` with `nx_strdup`
(`src/nx_string.c:38-48`): frees the old string first, then duplicates. Returns
the new heap and the new pointer value. -/
def strredup (h : Heap) (dest : Option Nat) (src : Src) : Res (Heap × Option Nat) := do
  let h ← heapFree h dest
  match ← src.read h with
  | none => pure (h, none)
  | some s => pure (h ++ [some s], some h.length)

/-- `struct NXStringArray`, `src/nx_string_array.c:36-41`. `elems` is the whole
allocation of `capacity` pointers; an uninitialised pointer is `none`, NULL is
`some none`. -/
structure SArr where
  elems : List (Option (Option Nat))
  size : Nat
  capacity : Nat
deriving DecidableEq, Repr

/-- `nx_string_array_alloc`, `src/nx_string_array.c:43-50`. -/
def saAlloc : SArr := { elems := List.replicate 2 none, size := 0, capacity := 2 }

/-- `INT_MAX`. -/
def intMax : Nat := 2147483647

/-- `NX_ENSURE_CAPACITY`, `include/virg/nexus/nx_alloc.h:65-73`; the `int`
computation `(cap+8)*3` overflowing is undefined. -/
def ensureCapacity (a : SArr) (req : Nat) : Res SArr :=
  if a.capacity < req then
    if (a.capacity + 8) * 3 > intMax then .ub
    else
      let cap := if (a.capacity + 8) * 3 / 2 < req then req else (a.capacity + 8) * 3 / 2
      .ok { a with capacity := cap,
                   elems := a.elems ++ List.replicate (cap - a.elems.length) none }
  else .ok a

/-- Reading a pointer slot; uninitialised slots must not be used. -/
def slotAt (a : SArr) (i : Nat) : Res (Option Nat) := do
  match ← readAt a.elems i with
  | some p => pure p
  | none => .ub

/-- The shrinking loop, `src/nx_string_array.c:92-95`. -/
def saShrink (h : Heap) (a : SArr) (i : Nat) : Res (Heap × SArr) :=
  if i < a.size then do
    let p ← slotAt a i
    let h ← heapFree h p
    let e ← writeAt a.elems i (some none)
    saShrink h { a with elems := e } (i + 1)
  else pure (h, a)
termination_by a.size - i

/-- The growing loop, `src/nx_string_array.c:98-99`. -/
def saGrow (a : SArr) (i newSize : Nat) : Res SArr :=
  if i < newSize then do
    let e ← writeAt a.elems i (some none)
    saGrow { a with elems := e } (i + 1) newSize
  else pure a
termination_by newSize - i

/-- `nx_string_array_resize`, `src/nx_string_array.c:86-103`. -/
def saResize (h : Heap) (a : SArr) (newSize : Int) : Res (Heap × SArr) :=
  if newSize < 0 then .fatal
  else if newSize.toNat < a.size then do
    let (h, a) ← saShrink h a newSize.toNat
    pure (h, { a with size := newSize.toNat })
  else do
    let a ← ensureCapacity a newSize.toNat
    let a ← saGrow a a.size newSize.toNat
    pure (h, { a with size := newSize.toNat })

/-- `nx_string_array_get`, `src/nx_string_array.c:112-118`. -/
def saGet (a : SArr) (id : Int) : Res (Option Nat) :=
  if 0 ≤ id ∧ id < a.size then slotAt a id.toNat else .fatal

/-- `nx_string_array_set`, `src/nx_string_array.c:120-126`. -/
def saSet (h : Heap) (a : SArr) (id : Int) (s : Src) : Res (Heap × SArr) :=
  if 0 ≤ id ∧ id < a.size then do
    let old ← slotAt a id.toNat
    let (h, p) ← strredup h old s
    let e ← writeAt a.elems id.toNat (some p)
    pure (h, { a with elems := e })
  else .fatal

/-- The text produced by a format whose conversions are all `%s` or literal text,
as a list of pieces; a NULL argument of `%s` is undefined. Simplification of
`nx_vfstr`, `src/nx_string.c:72-97`: only string conversions, and formatting
does not fail. -/
def fmtRead (h : Heap) : List Src → Res Bytes
  | [] => .ok []
  | p :: ps => do
    match ← p.read h with
    | none => .ub
    | some s =>
      let r ← fmtRead h ps
      pure (s ++ r)

/-- `nx_string_array_vsetf`, `src/nx_string_array.c:136-144`: frees the old
element before formatting. -/
def saSetf (h : Heap) (a : SArr) (id : Int) (fmt : List Src) : Res (Heap × SArr) :=
  if 0 ≤ id ∧ id < a.size then do
    let old ← slotAt a id.toNat
    let h ← heapFree h old
    let s ← fmtRead h fmt
    let e ← writeAt a.elems id.toNat (some (some h.length))
    pure (h ++ [some s], { a with elems := e })
  else .fatal

/-- `nx_string_array_append`, `src/nx_string_array.c:146-154`; returns the index. -/
def saAppend (h : Heap) (a : SArr) (s : Src) : Res (Heap × SArr × Nat) := do
  let n := a.size
  let (h, a) ← saResize h a (n + 1)
  let (h, a) ← saSet h a n s
  pure (h, a, n)

/-- `nx_string_array_vappendf`, `src/nx_string_array.c:165-174`. -/
def saAppendf (h : Heap) (a : SArr) (fmt : List Src) : Res (Heap × SArr × Nat) := do
  let n := a.size
  let (h, a) ← saResize h a (n + 1)
  let (h, a) ← saSetf h a n fmt
  pure (h, a, n)

/-- `nx_string_array_find`, `src/nx_string_array.c:176-186`, from index `i`;
`strcmp` with a NULL element is undefined. `none` is the return value -1. -/
def saFindLoop (h : Heap) (a : SArr) (s : Bytes) (i : Nat) : Res (Option Nat) :=
  if i < a.size then do
    let p ← slotAt a i
    match ← (Src.ofSlot p).read h with
    | none => .ub
    | some t => if s = t then pure (some i) else saFindLoop h a s (i + 1)
  else pure none
termination_by a.size - i

/-- The element loop of `nx_string_array_free`, `src/nx_string_array.c:72-73`. -/
def saFreeLoop (h : Heap) (a : SArr) (i : Nat) : Res Heap :=
  if i < a.size then do
    let p ← slotAt a i
    let h ← heapFree h p
    saFreeLoop h a (i + 1)
  else pure h
termination_by a.size - i

/-- `nx_string_array_free`, `src/nx_string_array.c:69-77`: the heap afterwards. -/
def saFree (h : Heap) (a : SArr) : Res Heap := saFreeLoop h a 0

/-- The element loop of `nx_string_array_write`, `src/nx_string_array.c:197-202`:
bytes written. `nx_strwrite` asserts a non-NULL string. -/
def saWriteLoop (h : Heap) (a : SArr) (i : Nat) : Res Bytes :=
  if i < a.size then do
    let p ← slotAt a i
    match ← (Src.ofSlot p).read h with
    | none => .fatal
    | some t =>
      let r ← saWriteLoop h a (i + 1)
      pure (strwrite t ++ r)
  else pure []
termination_by a.size - i

/-- `nx_string_array_write`, `src/nx_string_array.c:188-205`, on a stream that
accepts every write. -/
def saWrite (h : Heap) (a : SArr) : Res Bytes := do
  let r ← saWriteLoop h a 0
  pure (leInt32 a.size ++ r)

/-- The element loop of `nx_string_array_read`, `src/nx_string_array.c:226-230`.
`nx_strread(&elems[i], 0, stream)` reallocates the old string (here: frees it and
allocates a new object, whose content is the data read; on a short read the
content is indeterminate, modelled as empty). Returns success, heap, array and
the rest of the stream. -/
def saReadLoop (h : Heap) (a : SArr) (i : Nat) (st : Bytes) : Res (Bool × Heap × SArr × Bytes) :=
  if i < a.size then do
    let p ← slotAt a i
    let r ← strread 0 0 st
    if r.alloc = 0 then pure (false, h, a, r.rest)   -- length not read: pointer untouched
    else do
      let h ← heapFree h p
      let e ← writeAt a.elems i (some (some h.length))
      let h := h ++ [some r.content]
      if r.ret ≠ 0 then pure (false, h, { a with elems := e }, r.rest)
      else saReadLoop h { a with elems := e } (i + 1) r.rest
  else pure (true, h, a, st)
termination_by a.size - i

/-- `nx_string_array_read`, `src/nx_string_array.c:215-233`. -/
def saRead (h : Heap) (a : SArr) (st : Bytes) : Res (Bool × Heap × SArr × Bytes) :=
  match fread1 4 st with
  | (none, rest) => .ok (false, h, a, rest)
  | (some b, st) => do
    let (h, a) ← saResize h a (intOfLe32 b)
    saReadLoop h a 0 st

end Nx
