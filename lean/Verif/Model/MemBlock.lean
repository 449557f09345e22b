import Verif.Core

/-!
# Model of `src/nx_mem_block.c`

The heap is a list of allocations, an address is an index (pointers are always to
the start of an allocation). Bytes not written yet are `none`. Allocations made by
the user of the library carry a flag: the library must not free them unless the
user hands over ownership.
-/

namespace Nx

/-- A live allocation. -/
structure Chunk where
  data : List (Option Byte)
  user : Bool
deriving DecidableEq, Repr

/-- Heap of allocations, `none` = freed. -/
abbrev MHeap := List (Option Chunk)

/-- `struct NXMemBlock`, `include/virg/nexus/nx_mem_block.h:36-42`. -/
structure MBlock where
  ptr : Option Nat
  size : Nat
  cap : Nat
  own : Bool
deriving DecidableEq, Repr

/-- Access to a live allocation. -/
def chunkAt (h : MHeap) (p : Nat) : Res Chunk :=
  match h[p]? with
  | some (some c) => .ok c
  | _ => .ub

/-- `nx_free(ptr)`, `src/nx_alloc.c:114-117`: anything but NULL or a live
allocation the library owns is undefined (the user would free it again). -/
def mFree (h : MHeap) : Option Nat → Res MHeap
  | none => .ok h
  | some p => do
    let c ← chunkAt h p
    if c.user then .ub else pure (h.set p none)

/-- `nx_xmalloc(n)`, `src/nx_alloc.c:84-94`, succeeding; uninitialised bytes. -/
def mAlloc (h : MHeap) (n : Nat) : MHeap × Nat :=
  (h ++ [some { data := List.replicate n none, user := false }], h.length)

/-- `nx_xrealloc(ptr, n)`, `src/nx_alloc.c:105-112`, succeeding; modelled as
always moving the object. -/
def mRealloc (h : MHeap) (p : Option Nat) (n : Nat) : Res (MHeap × Nat) :=
  match p with
  | none => .ok (mAlloc h n)
  | some q => do
    let c ← chunkAt h q
    let h ← mFree h (some q)
    pure (h ++ [some { data := c.data.take n ++ List.replicate (n - c.data.length) none,
                       user := false }], h.length)

/-- `memcpy(dst, src, n)` between starts of allocations; overlapping objects (here:
the same allocation) and leaving an object are undefined. A zero length copy is
harmless whatever the pointers. -/
def mCopy (h : MHeap) (dst src : Option Nat) (n : Nat) : Res MHeap :=
  if n = 0 then .ok h
  else
    match dst, src with
    | some d, some s => do
      let cd ← chunkAt h d
      let cs ← chunkAt h s
      if d = s then .ub
      else if n ≤ cd.data.length ∧ n ≤ cs.data.length then
        pure (h.set d (some { cd with data := cs.data.take n ++ cd.data.drop n }))
      else .ub
    | _, _ => .ub

/-- `nx_mem_block_alloc`, `src/nx_mem_block.c:33-43`. -/
def mbAlloc : MBlock := { ptr := none, size := 0, cap := 0, own := false }

/-- `nx_mem_block_reserve`, `src/nx_mem_block.c:63-82`. -/
def mbReserve (h : MHeap) (m : MBlock) (n : Nat) : Res (MHeap × MBlock) :=
  if n > m.cap then
    if m.own then do
      let (h, p) ← mRealloc h m.ptr n
      pure (h, { m with ptr := some p, cap := n })
    else do
      let (h, p) := mAlloc h n
      let h ← (if m.size > 0 then mCopy h (some p) m.ptr m.size else pure h)
      pure (h, { m with ptr := some p, own := true, cap := n })
  else .ok (h, m)

/-- `nx_mem_block_resize`, `src/nx_mem_block.c:84-92`. -/
def mbResize (h : MHeap) (m : MBlock) (n : Nat) : Res (MHeap × MBlock) := do
  let (h, m) ← mbReserve h m n
  pure (h, { m with size := n })

/-- `nx_mem_block_release`, `src/nx_mem_block.c:94-106`. -/
def mbRelease (h : MHeap) (m : MBlock) : Res (MHeap × MBlock) := do
  let h ← (if m.ptr.isSome ∧ m.own then mFree h m.ptr else pure h)
  pure (h, mbAlloc)

/-- `nx_mem_block_wrap`, `src/nx_mem_block.c:108-121`, for a non-NULL pointer. -/
def mbWrap (h : MHeap) (m : MBlock) (p : Nat) (sz cap : Nat) (own : Bool) : Res (MHeap × MBlock) := do
  let (h, _) ← mbRelease h m
  pure (h, { ptr := some p, size := sz, cap := cap, own := own })

/-- `nx_mem_block_copy`, `src/nx_mem_block.c:147-159`; `dest` and `src` are
different structs. -/
def mbCopy (h : MHeap) (d s : MBlock) : Res (MHeap × MBlock) := do
  let (h, d) ← mbResize h d s.size
  let h ← (if s.ptr.isSome then mCopy h d.ptr s.ptr d.size else pure h)
  pure (h, d)

/-- `nx_mem_block_copy(mem, mem)`: destination and source are the same struct, so
the source size and pointer are read after the resize. -/
def mbCopySelf (h : MHeap) (m : MBlock) : Res (MHeap × MBlock) := do
  let (h, m) ← mbResize h m m.size
  let h ← (if m.ptr.isSome then mCopy h m.ptr m.ptr m.size else pure h)
  pure (h, m)

/-- `nx_mem_block_set_zero`, `src/nx_mem_block.c:161-168`. -/
def mbSetZero (h : MHeap) (m : MBlock) : Res MHeap :=
  match m.ptr with
  | none => .ok h
  | some p => do
    let c ← chunkAt h p
    if m.size ≤ c.data.length then
      pure (h.set p (some { c with data := List.replicate m.size (some 0) ++ c.data.drop m.size }))
    else .ub

/-- `nx_mem_block_free`, `src/nx_mem_block.c:53-61` (the struct itself is not part
of the modelled heap). -/
def mbFree (h : MHeap) (m : MBlock) : Res MHeap :=
  if m.own then mFree h m.ptr else .ok h

/-- The program state: heap and the blocks the user created (`none` = freed). -/
structure MWorld where
  heap : MHeap
  blocks : List (Option MBlock)
deriving DecidableEq, Repr

/-- Calls of the user, on blocks named by their creation number. -/
inductive MOp where
  /-- `nx_mem_block_new(n)` -/
  | new (n : Nat)
  | reserve (b n : Nat)
  | resize (b n : Nat)
  | release (b : Nat)
  /-- wrap memory the user has just allocated and filled with `data`; with `own`
  the ownership is handed over -/
  | wrap (b : Nat) (data : Bytes) (sz : Nat) (own : Bool)
  | swap (b c : Nat)
  /-- `nx_mem_block_copy(d, s)` -/
  | copy (d s : Nat)
  /-- `nx_mem_block_copy0(s)` -/
  | copy0 (s : Nat)
  | setZero (b : Nat)
  | free (b : Nat)
deriving DecidableEq, Repr

/-- A block handle; using a freed struct is undefined. -/
def blockAt (w : MWorld) (b : Nat) : Res MBlock :=
  match w.blocks[b]? with
  | some (some m) => .ok m
  | _ => .ub

/-- One call. -/
def mStep (w : MWorld) : MOp → Res MWorld
  | .new n => do
    let (h, m) ← mbResize w.heap mbAlloc n
    pure { heap := h, blocks := w.blocks ++ [some m] }
  | .reserve b n => do
    let m ← blockAt w b
    let (h, m) ← mbReserve w.heap m n
    pure { heap := h, blocks := w.blocks.set b (some m) }
  | .resize b n => do
    let m ← blockAt w b
    let (h, m) ← mbResize w.heap m n
    pure { heap := h, blocks := w.blocks.set b (some m) }
  | .release b => do
    let m ← blockAt w b
    let (h, m) ← mbRelease w.heap m
    pure { heap := h, blocks := w.blocks.set b (some m) }
  | .wrap b data sz own => do
    let m ← blockAt w b
    let p := w.heap.length
    let (h, m) ← mbWrap (w.heap ++ [some { data := data.map some, user := !own }]) m p sz
      data.length own
    pure { heap := h, blocks := w.blocks.set b (some m) }
  | .swap b c => do
    let m ← blockAt w b
    let n ← blockAt w c
    pure { w with blocks := (w.blocks.set b (some n)).set c (some m) }
  | .copy d s => do
    let md ← blockAt w d
    let ms ← blockAt w s
    let (h, m) ← (if d = s then mbCopySelf w.heap md else mbCopy w.heap md ms)
    pure { heap := h, blocks := w.blocks.set d (some m) }
  | .copy0 s => do
    let ms ← blockAt w s
    let (h, m) ← mbCopy w.heap mbAlloc ms
    pure { heap := h, blocks := w.blocks ++ [some m] }
  | .setZero b => do
    let m ← blockAt w b
    let h ← mbSetZero w.heap m
    pure { w with heap := h }
  | .free b => do
    let m ← blockAt w b
    let h ← mbFree w.heap m
    pure { heap := h, blocks := w.blocks.set b none }

end Nx
