import Verif.Model.Ledger
import Verif.Model.Csv

/-!
# Model of the memory of data frames, `src/nx_data_frame.c`

Simplifications. Only which blocks are allocated is recorded, not what they contain. Whether a factor has a level with
the text of a value depends on the contents; the place where it is found is a parameter and the theorems hold for all of
them. Indices are natural numbers; negative ones fail the same assertions as too large ones. Arrays with more than
`INT_MAX / 3 - 8` elements are not modelled here, see `Verif/Model/Alloc.lean`. `nx_data_frame_vset` and
`nx_data_frame_append_row` are sequences of the operations here.
-/

namespace Nx

/-- `nx_xrealloc`, `src/nx_alloc.c:105-112`, when there is memory: a new block for the old one. -/
def memRealloc (σ : Mem) (p : Option Nat) : Res (Mem × Nat) := do
  let σ ← memFree σ p
  pure (memAlloc σ)

/-- `NX_ENSURE_CAPACITY`, `include/virg/nexus/nx_alloc.h:65-73`. -/
def memEnsure (σ : Mem) (arr : Option Nat) (cap req : Nat) : Res (Mem × Option Nat × Nat) :=
  if cap < req then do
    let r ← memRealloc σ arr
    pure (r.1, some r.2, if (cap + 8) * 3 / 2 < req then req else (cap + 8) * 3 / 2)
  else .ok (σ, arr, cap)

/-- `nx_strdup`, `src/nx_string.c:38-48`. -/
def memStrdup (σ : Mem) (s : MSrc) : Res (Mem × Option Nat) := if s = .null then .fatal else memDup σ s

/-- An access to element `i` of an array with capacity `cap`. -/
def slotUse (σ : Mem) (arr : Option Nat) (cap i : Nat) : Res Unit :=
  match arr with
  | none => .ub
  | some p => if i < cap then memUse σ p else .ub

/-- A read of a string argument. -/
def srcUse (σ : Mem) : MSrc → Res Unit
  | .null => .ub
  | .ext => .ok ()
  | .ptr p => memUse σ p

/-- `struct NXStringArray`, `src/nx_string_array.c:36-41`. -/
structure DMLevels where
  self : Nat
  arr : Option Nat
  cap : Nat
  elems : List (Option Nat)
deriving DecidableEq, Repr

/-- `struct NXDataColumn`, `src/nx_data_frame.c:63-72`. -/
structure DMCol where
  self : Nat
  type : DCT
  label : Option Nat
  arr : Option Nat
  cap : Nat
  elems : List (Option Nat)
  levels : Option DMLevels
deriving DecidableEq, Repr

/-- `struct NXDataFrame`, `struct NXDataColumnArray`, `src/nx_data_frame.c:145-154`. -/
structure DMFrame where
  self : Nat
  nRows : Nat
  colsSelf : Nat
  arr : Option Nat
  cap : Nat
  cols : List DMCol
deriving DecidableEq, Repr

/-- `nx_string_array_alloc`, `src/nx_string_array.c:43-50`. -/
def dmLevelsAlloc (σ : Mem) : Mem × DMLevels :=
  let a := memAlloc σ
  let b := memAlloc a.1
  (b.1, ⟨a.2, some b.2, 2, []⟩)

/-- The freeing of the elements of an array, `src/nx_string_array.c:72-73`, `src/nx_data_frame.c:123-124`. -/
def dmFreeElems (σ : Mem) (arr : Option Nat) (cap : Nat) : Nat → List (Option Nat) → Res Mem
  | _, [] => .ok σ
  | i, p :: ps => do
    slotUse σ arr cap i
    let σ ← memFree σ p
    dmFreeElems σ arr cap (i + 1) ps

/-- `nx_string_array_free`, `src/nx_string_array.c:69-77`. -/
def dmLevelsFree (σ : Mem) : Option DMLevels → Res Mem
  | none => .ok σ
  | some lv => do
    memUse σ lv.self
    let σ ← dmFreeElems σ lv.arr lv.cap 0 lv.elems
    let σ ← memFree σ lv.arr
    memFree σ (some lv.self)

/-- `nx_string_array_append`, `src/nx_string_array.c:146-154`, with `nx_string_array_resize`,
`src/nx_string_array.c:86-103`, and `nx_string_array_set`, `src/nx_string_array.c:120-126`. -/
def dmLevelsAppend (σ : Mem) (lv : DMLevels) (s : MSrc) : Res (Mem × DMLevels) := do
  memUse σ lv.self
  let r ← memEnsure σ lv.arr lv.cap (lv.elems.length + 1)
  slotUse r.1 r.2.1 r.2.2 lv.elems.length
  let d ← memRedup r.1 none s
  pure (d.1, { lv with arr := r.2.1, cap := r.2.2, elems := lv.elems ++ [d.2] })

/-- The loop of `nx_string_array_find`, `src/nx_string_array.c:181-183`: the element `k` is the first equal one, if
there are that many. -/
def dmFindLoop (σ : Mem) (arr : Option Nat) (cap : Nat) (s : MSrc) : Nat → List (Option Nat) → Nat → Res Bool
  | _, [], _ => .ok false
  | i, e :: es, k => do
    srcUse σ s
    slotUse σ arr cap i
    srcUse σ (MSrc.of e)
    if k = 0 then pure true else dmFindLoop σ arr cap s (i + 1) es (k - 1)

/-- `nx_data_column_value_to_factor`, `src/nx_data_frame.c:135-143`. -/
def dmToFactor (σ : Mem) (dc : DMCol) (s : MSrc) (k : Nat) : Res (Mem × DMCol) :=
  match dc.levels with
  | none => .fatal
  | some lv => do
    memUse σ lv.self
    let found ← dmFindLoop σ lv.arr lv.cap s 0 lv.elems k
    if found then pure (σ, dc)
    else do
      let r ← dmLevelsAppend σ lv s
      pure (r.1, { dc with levels := some r.2 })

/-- The levels of a new column, `src/nx_data_frame.c:83-86`. -/
def dmNewLevels (σ : Mem) (type : DCT) : Mem × Option DMLevels :=
  if type = .factor then ((dmLevelsAlloc σ).1, some (dmLevelsAlloc σ).2) else (σ, none)

/-- `nx_data_column_alloc`, `src/nx_data_frame.c:74-88`. -/
def dmColAlloc (σ : Mem) (type : DCT) (label : MSrc) : Res (Mem × DMCol) := do
  let a := memAlloc σ
  let d ← memStrdup a.1 label
  let lv := dmNewLevels d.1 type
  pure (lv.1, ⟨a.2, type, d.2, none, 0, [], lv.2⟩)

/-- The access to all elements from `i` on, `src/nx_data_frame.c:96-97`. -/
def dfmClear (σ : Mem) (arr : Option Nat) (cap : Nat) : Nat → Nat → Res Unit
  | _, 0 => .ok ()
  | i, n + 1 => do
    slotUse σ arr cap i
    dfmClear σ arr cap (i + 1) n

/-- `nx_data_column_grow`, `src/nx_data_frame.c:90-100`. -/
def dmGrow (σ : Mem) (dc : DMCol) (newSize : Nat) : Res (Mem × DMCol) :=
  if dc.elems.length < newSize then do
    let r ← memEnsure σ dc.arr dc.cap newSize
    dfmClear r.1 r.2.1 r.2.2 dc.elems.length (newSize - dc.elems.length)
    pure (r.1, { dc with
      arr := r.2.1
      cap := r.2.2
      elems := dc.elems ++ List.replicate (newSize - dc.elems.length) none })
  else .ok (σ, dc)

/-- `nx_data_column_new`, `src/nx_data_frame.c:102-108`. -/
def dmColNew (σ : Mem) (type : DCT) (label : MSrc) (n : Nat) : Res (Mem × DMCol) := do
  let r ← dmColAlloc σ type label
  dmGrow r.1 r.2 n

/-- `nx_data_column_append_row`, `src/nx_data_frame.c:111-118`. -/
def dmColAppendRow (σ : Mem) (dc : DMCol) : Res (Mem × DMCol) := do
  memUse σ dc.self
  if dc.elems.length < 2147483647 then dmGrow σ dc (dc.elems.length + 1) else .fatal

/-- `nx_data_column_free`, `src/nx_data_frame.c:120-132`. -/
def dmColFree (σ : Mem) (dc : DMCol) : Res Mem := do
  memUse σ dc.self
  let σ ← dmFreeElems σ dc.arr dc.cap 0 dc.elems
  let σ ← memFree σ dc.label
  let σ ← dmLevelsFree σ dc.levels
  let σ ← memFree σ dc.arr
  memFree σ (some dc.self)

/-- `nx_data_frame_alloc`, `src/nx_data_frame.c:156-166`. -/
def dmAlloc (σ : Mem) : Mem × DMFrame :=
  let a := memAlloc σ
  let b := memAlloc a.1
  (b.1, ⟨a.2, 0, b.2, none, 0, []⟩)

/-- The loop of `nx_data_frame_free`, `src/nx_data_frame.c:171-172`. -/
def dmFreeCols (σ : Mem) (df : DMFrame) : Nat → List DMCol → Res Mem
  | _, [] => .ok σ
  | i, dc :: dcs => do
    memUse σ df.colsSelf
    slotUse σ df.arr df.cap i
    let σ ← dmColFree σ dc
    dmFreeCols σ df (i + 1) dcs

/-- `nx_data_frame_free`, `src/nx_data_frame.c:168-179`. -/
def dmFree (σ : Mem) (df : DMFrame) : Res Mem := do
  memUse σ df.self
  let σ ← dmFreeCols σ df 0 df.cols
  memUse σ df.colsSelf
  let σ ← memFree σ df.arr
  let σ ← memFree σ (some df.colsSelf)
  memFree σ (some df.self)

/-- `nx_data_frame_add_column`, `src/nx_data_frame.c:181-191`. -/
def dmAddColumn (σ : Mem) (df : DMFrame) (type : DCT) (label : MSrc) : Res (Mem × DMFrame) :=
  if label = .null then .fatal
  else do
    memUse σ df.self
    let c ← dmColNew σ type label df.nRows
    memUse c.1 df.colsSelf
    let r ← memEnsure c.1 df.arr df.cap (df.cols.length + 1)
    slotUse r.1 r.2.1 r.2.2 df.cols.length
    pure (r.1, { df with arr := r.2.1, cap := r.2.2, cols := df.cols ++ [c.2] })

/-- The loop of `nx_data_frame_add_row`, `src/nx_data_frame.c:291-292`. -/
def dmAddRowLoop (σ : Mem) (df : DMFrame) : Nat → List DMCol → Res (Mem × List DMCol)
  | _, [] => .ok (σ, [])
  | i, dc :: dcs => do
    slotUse σ df.arr df.cap i
    let r ← dmColAppendRow σ dc
    let q ← dmAddRowLoop r.1 df (i + 1) dcs
    pure (q.1, r.2 :: q.2)

/-- `nx_data_frame_add_row`, `src/nx_data_frame.c:287-296`. -/
def dmAddRow (σ : Mem) (df : DMFrame) : Res (Mem × DMFrame) := do
  memUse σ df.self
  memUse σ df.colsSelf
  let r ← dmAddRowLoop σ df 0 df.cols
  pure (r.1, { df with nRows := df.nRows + 1, cols := r.2 })

/-- `df->columns->elems[col_id]` for an index of a column. -/
def dmColAt (σ : Mem) (df : DMFrame) (c : Nat) : Res DMCol := do
  memUse σ df.self
  memUse σ df.colsSelf
  slotUse σ df.arr df.cap c
  readAt df.cols c

/-- A change of the column `c`: the assertions and the access at the begin of the setters,
`src/nx_data_frame.c:430-434`. -/
def dmAt (σ : Mem) (df : DMFrame) (r c : Nat) (op : Mem → DMCol → Res (Mem × DMCol)) : Res (Mem × DMFrame) :=
  if r < df.nRows ∧ c < df.cols.length then do
    let dc ← dmColAt σ df c
    memUse σ dc.self
    let p ← op σ dc
    let cols ← writeAt df.cols c p.2
    pure (p.1, { df with cols := cols })
  else .fatal

/-- `NA_DATA_FRAME_ELEMENT`, `src/nx_data_frame.c:55-61`. -/
def dmNa (σ : Mem) (dc : DMCol) (r : Nat) : Res (Mem × DMCol) := do
  slotUse σ dc.arr dc.cap r
  let e ← readAt dc.elems r
  let σ ← memFree σ e
  let es ← writeAt dc.elems r none
  pure (σ, { dc with elems := es })

/-- `dc->elems[row_id] = …`. -/
def dmPut (σ : Mem) (dc : DMCol) (r : Nat) (p : Option Nat) : Res (Mem × DMCol) := do
  slotUse σ dc.arr dc.cap r
  let es ← writeAt dc.elems r p
  pure (σ, { dc with elems := es })

/-- The end of `nx_data_frame_set_string`, `src/nx_data_frame.c:446-449`. -/
def dmColSetString (s : MSrc) (r : Nat) (σ : Mem) (dc : DMCol) : Res (Mem × DMCol) :=
  if dc.type = .string then do
    let n ← dmNa σ dc r
    let d ← memStrdup n.1 s
    dmPut d.1 n.2 r d.2
  else .fatal

/-- The end of `nx_data_frame_set_int`, `set_double`, `set_bool`, `src/nx_data_frame.c:459-464`, `474-479`,
`489-494`. -/
def dmColSetPlain (type : DCT) (r : Nat) (σ : Mem) (dc : DMCol) : Res (Mem × DMCol) :=
  if dc.type = type then do
    let n ← dmNa σ dc r
    let a := memAlloc n.1
    dmPut a.1 n.2 r (some a.2)
  else .fatal

/-- The end of `nx_data_frame_set_factor`, `src/nx_data_frame.c:505-512`. -/
def dmColSetFactor (s : MSrc) (k r : Nat) (σ : Mem) (dc : DMCol) : Res (Mem × DMCol) :=
  if dc.type = .factor then do
    let n ← dmNa σ dc r
    let f ← dmToFactor n.1 n.2 s k
    let a := memAlloc f.1
    dmPut a.1 f.2 r (some a.2)
  else .fatal

/-- `nx_data_frame_set_na`, `src/nx_data_frame.c:428-436`. -/
def dmSetNa (σ : Mem) (df : DMFrame) (r c : Nat) : Res (Mem × DMFrame) := dmAt σ df r c (fun σ dc => dmNa σ dc r)

/-- `nx_data_frame_set_string`, `src/nx_data_frame.c:438-450`. -/
def dmSetString (σ : Mem) (df : DMFrame) (r c : Nat) (s : MSrc) : Res (Mem × DMFrame) :=
  if s = .null then .fatal else dmAt σ df r c (dmColSetString s r)

/-- `nx_data_frame_set_int`, `set_double`, `set_bool`, `src/nx_data_frame.c:452-495`. -/
def dmSetPlain (σ : Mem) (df : DMFrame) (type : DCT) (r c : Nat) : Res (Mem × DMFrame) :=
  dmAt σ df r c (dmColSetPlain type r)

/-- `nx_data_frame_set_factor`, `src/nx_data_frame.c:497-513`. -/
def dmSetFactor (σ : Mem) (df : DMFrame) (r c : Nat) (s : MSrc) (k : Nat) : Res (Mem × DMFrame) :=
  if s = .null then .fatal else dmAt σ df r c (dmColSetFactor s k r)

/-- The value of an element as a level, `src/nx_data_frame.c:219-222` and `226-235`: the string itself, or a text in a
local array. -/
def dmLevelSrc (type : DCT) (p : Nat) : MSrc := if type = .string then .ptr p else .ext

/-- The body of the loops of `nx_data_frame_make_factor`, `src/nx_data_frame.c:219-222`, `226-236`. -/
def dmFactorOne (σ : Mem) (df : DMFrame) (c : Nat) (dc : DMCol) (i k : Nat) : Option Nat → Res (Mem × DMFrame)
  | none => do
    slotUse σ dc.arr dc.cap i
    pure (σ, df)
  | some p => do
    slotUse σ dc.arr dc.cap i
    memUse σ p
    dmSetFactor σ df i c (dmLevelSrc dc.type p) k

/-- The loops of `nx_data_frame_make_factor`, `src/nx_data_frame.c:217-238`. -/
def dmFactorLoop (c : Nat) (dc : DMCol) (ks : Nat → Nat) (σ : Mem) (df : DMFrame) :
    Nat → Nat → Res (Mem × DMFrame)
  | _, 0 => .ok (σ, df)
  | i, n + 1 => do
    let e ← readAt dc.elems i
    let r ← dmFactorOne σ df c dc i (ks i) e
    dmFactorLoop c dc ks r.1 r.2 (i + 1) n

/-- `nx_data_frame_make_factor`, `src/nx_data_frame.c:206-241`. -/
def dmMakeFactor (σ : Mem) (df : DMFrame) (c : Nat) (ks : Nat → Nat) : Res (Mem × DMFrame) :=
  if c < df.cols.length then do
    let dc ← dmColAt σ df c
    memUse σ dc.self
    if dc.type = .factor then pure (σ, df)
    else do
      let n ← dmColNew σ .factor (MSrc.of dc.label) df.nRows
      let cols ← writeAt df.cols c n.2
      let r ← dmFactorLoop c dc ks n.1 { df with cols := cols } 0 df.nRows
      let σ ← dmColFree r.1 dc
      pure (σ, r.2)
  else .fatal

/-- What a program does with a data frame. -/
inductive DMOp
  | addColumn (type : DCT) (label : MSrc)
  | addRow
  | setNa (r c : Nat)
  | setString (r c : Nat) (s : MSrc)
  | setInt (r c : Nat)
  | setDouble (r c : Nat)
  | setBool (r c : Nat)
  | setFactor (r c : Nat) (s : MSrc) (k : Nat)
  | makeFactor (c : Nat) (ks : Nat → Nat)

/-- One operation. -/
def dfmStep (σ : Mem) (df : DMFrame) : DMOp → Res (Mem × DMFrame)
  | .addColumn type label => dmAddColumn σ df type label
  | .addRow => dmAddRow σ df
  | .setNa r c => dmSetNa σ df r c
  | .setString r c s => dmSetString σ df r c s
  | .setInt r c => dmSetPlain σ df .int r c
  | .setDouble r c => dmSetPlain σ df .double r c
  | .setBool r c => dmSetPlain σ df .bool r c
  | .setFactor r c s k => dmSetFactor σ df r c s k
  | .makeFactor c ks => dmMakeFactor σ df c ks

/-- A sequence of operations. -/
def dfmRun (σ : Mem) (df : DMFrame) : List DMOp → Res (Mem × DMFrame)
  | [] => .ok (σ, df)
  | op :: ops => do
    let r ← dfmStep σ df op
    dfmRun r.1 r.2 ops

end Nx
