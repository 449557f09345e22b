import Verif.Model.MemBlock

/-!
# Model of the generic vector, `src/nx_vector_gen.c`

Vector number `b` uses block number `b` of `Verif/Model/MemBlock.lean`. `k` is the size of an item in bytes. Sizes are natural numbers: products of counts
and `k` must not exceed `size_t`.
-/

namespace Nx

/-- The fields of `struct NX_VECTOR_NAME`, `include/virg/nexus/nx_vector_gen.h:45-51`; `mem` is the block with the same number. -/
structure VFields where
  size : Nat
  cap : Nat
  data : Option Nat
deriving DecidableEq, Repr

/-- Memory blocks and vectors (`none` = freed). -/
structure VWorld where
  mem : MWorld
  fields : List (Option VFields)
deriving DecidableEq, Repr

/-- Calls of the user. -/
inductive VOp where
  | alloc
  | new (n : Nat)
  | free (b : Nat)
  | release (b : Nat)
  | reserve (b n : Nat)
  | resize (b n : Nat)
  | clear (b : Nat)
  /-- wrap memory the user has just allocated and filled with `data`; the capacity is what fits in `data` -/
  | wrap (b : Nat) (data : Bytes) (sz : Nat) (own : Bool)
  | copy (d s : Nat)
  | copy0 (s : Nat)
  /-- `*push_back(v) = item` -/
  | push (b : Nat) (item : Bytes)
  /-- `v->data[i] = item` -/
  | put (b i : Nat) (item : Bytes)
deriving DecidableEq, Repr

/-- Access to a vector. -/
def fieldsAt (w : VWorld) (b : Nat) : Res VFields :=
  match w.fields[b]? with
  | some (some f) => .ok f
  | _ => .ub

/-- `_update_vector_fields`, `src/nx_vector_gen.c:39-44`. -/
def vUpdate (k : Nat) (mem : MWorld) (fields : List (Option VFields)) (b : Nat) : Res VWorld := do
  let m ← blockAt mem b
  pure { mem := mem, fields := fields.set b (some ⟨m.size / k, m.cap / k, m.ptr⟩) }

/-- `alloc`, `src/nx_vector_gen.c:46-57`. -/
def vAlloc (w : VWorld) : VWorld :=
  { mem := { w.mem with blocks := w.mem.blocks ++ [some mbAlloc] }, fields := w.fields ++ [some ⟨0, 0, none⟩] }

/-- `reserve`, `src/nx_vector_gen.c:82-88`. -/
def vReserve (k : Nat) (w : VWorld) (b n : Nat) : Res VWorld := do
  let f ← fieldsAt w b
  if n > f.cap then do
    let mem ← mStep w.mem (.reserve b (n * k))
    vUpdate k mem w.fields b
  else pure w

/-- `resize`, `src/nx_vector_gen.c:90-94`. -/
def vResize (k : Nat) (w : VWorld) (b n : Nat) : Res VWorld := do
  let mem ← mStep w.mem (.resize b (n * k))
  vUpdate k mem w.fields b

/-- `copy`, `src/nx_vector_gen.c:114-118`. -/
def vCopy (k : Nat) (w : VWorld) (d s : Nat) : Res VWorld := do
  let mem ← mStep w.mem (.copy d s)
  vUpdate k mem w.fields d

/-- `push_back`, `src/nx_vector_gen.c:120-126`: the vector and the index of the item that the result points to. -/
def vPush (k : Nat) (w : VWorld) (b : Nat) : Res (VWorld × Nat) := do
  let f ← fieldsAt w b
  let w ← (if f.size ≥ f.cap then vReserve k w b (f.size * 2) else pure w)
  let f ← fieldsAt w b
  let w ← vResize k w b (f.size + 1)
  let f ← fieldsAt w b
  pure (w, f.size - 1)

/-- Reading `v->data[i]`: within the allocation. -/
def vGet (k : Nat) (w : VWorld) (b i : Nat) : Res (List (Option Byte)) := do
  let f ← fieldsAt w b
  match f.data with
  | none => .ub
  | some p => do
    let c ← chunkAt w.mem.heap p
    if i * k + k ≤ c.data.length then pure ((c.data.drop (i * k)).take k) else .ub

/-- Writing `v->data[i]`. -/
def vPut (k : Nat) (w : VWorld) (b i : Nat) (item : Bytes) : Res VWorld := do
  let f ← fieldsAt w b
  match f.data with
  | none => .ub
  | some p => do
    let c ← chunkAt w.mem.heap p
    if i * k + k ≤ c.data.length ∧ item.length = k then
      pure { w with mem := { w.mem with heap := w.mem.heap.set p (some { c with data := c.data.take (i * k) ++ item.map some ++ c.data.drop (i * k + k) }) } }
    else .ub

/-- One call. -/
def vStep (k : Nat) (w : VWorld) : VOp → Res VWorld
  | .alloc => .ok (vAlloc w)
  -- `src/nx_vector_gen.c:59-64`
  | .new n => vReserve k (vAlloc w) w.fields.length n
  -- `src/nx_vector_gen.c:66-72`
  | .free b => do
    let _ ← fieldsAt w b
    let mem ← mStep w.mem (.free b)
    pure { mem := mem, fields := w.fields.set b none }
  -- `src/nx_vector_gen.c:74-81`
  | .release b => do
    let _ ← fieldsAt w b
    let mem ← mStep w.mem (.release b)
    pure { mem := mem, fields := w.fields.set b (some ⟨0, 0, none⟩) }
  | .reserve b n => vReserve k w b n
  | .resize b n => vResize k w b n
  -- `src/nx_vector_gen.c:96-99`
  | .clear b => vResize k w b 0
  -- `src/nx_vector_gen.c:101-105`
  | .wrap b data sz own => do
    let mem ← mStep w.mem (.wrap b data (sz * k) own)
    vUpdate k mem w.fields b
  | .copy d s => vCopy k w d s
  -- `src/nx_vector_gen.c:107-112`
  | .copy0 s => vCopy k (vAlloc w) w.fields.length s
  | .push b item => do
    let (w, i) ← vPush k w b
    vPut k w b i item
  | .put b i item => vPut k w b i item

end Nx
