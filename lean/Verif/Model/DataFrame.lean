import Verif.Model.Csv
import Verif.Model.Graph

/-!
# Model of data frames

`src/nx_data_frame.c`, and the part of `src/nx_csv_parser.c` that makes a data frame
of CSV records.

Simplifications. A cell (`void *`) is a tagged value instead of a pointer to a heap
object; reading it as another type than the stored one is the outcome `ub`. The
factor levels are a list (that `struct NXStringArray` behaves as a list of strings
is C05). A `double` is its 64-bit pattern. The conversions `%.17g` (`fmtD`) and
`atof` (`atof`) of the C library are parameters. Allocation succeeds and
`NX_ENSURE_CAPACITY` does not overflow. NULL arguments are not modelled.
-/

namespace Nx

/-- What the `void *` of a cell points to. -/
inductive DVal
  | str (s : Bytes)
  | int (v : Int)
  | dbl (bits : UInt64)
  | bool (v : Int)
deriving DecidableEq, Repr

/-- `struct NXDataColumn`, `src/nx_data_frame.c:63-72`. -/
structure DCol where
  type : DCT
  label : Bytes
  elems : List (Option DVal)
  levels : List Bytes
deriving DecidableEq, Repr

/-- `struct NXDataFrame`, `src/nx_data_frame.c:151-154`. -/
structure DFrame where
  nRows : Int
  cols : List DCol
deriving DecidableEq, Repr

/-- `nx_data_column_alloc`, `nx_data_column_grow`, `nx_data_column_new`,
`src/nx_data_frame.c:74-108`. -/
def dcNew (type : DCT) (label : Bytes) (size : Int) : DCol :=
  { type := type, label := label, elems := List.replicate size.toNat none, levels := [] }

/-- `nx_data_column_append_row`, `src/nx_data_frame.c:111-118`. -/
def dcAppendRow (dc : DCol) : Res DCol :=
  if (dc.elems.length : Int) < 2147483647 then .ok { dc with elems := dc.elems ++ [none] }
  else .fatal

/-- `nx_data_column_value_to_factor`, `src/nx_data_frame.c:135-143`: the levels
afterwards and the level of the value. -/
def valueToFactor (levels : List Bytes) (value : Bytes) : List Bytes × Int :=
  match levels.idxOf? value with
  | some i => (levels, i)
  | none => (levels ++ [value], levels.length)

/-- `nx_data_frame_alloc`, `src/nx_data_frame.c:156-166`. -/
def dfAlloc : DFrame := { nRows := 0, cols := [] }

/-- `nx_data_frame_add_column`, `src/nx_data_frame.c:181-191`. -/
def dfAddColumn (df : DFrame) (type : DCT) (label : Bytes) : DFrame :=
  { df with cols := df.cols ++ [dcNew type label df.nRows] }

/-- `nx_data_frame_column`, `src/nx_data_frame.c:249-255`. -/
def dfColumn (df : DFrame) (c : Int) : Res DCol := do
  assertIndex c df.cols.length
  readAt df.cols c.toNat

/-- The loop of `nx_data_frame_add_row`, `src/nx_data_frame.c:291-292`. -/
def dfAppendRows : List DCol → Res (List DCol)
  | [] => .ok []
  | dc :: cs => do
    let dc ← dcAppendRow dc
    let cs ← dfAppendRows cs
    pure (dc :: cs)

/-- `nx_data_frame_add_row`, `src/nx_data_frame.c:287-296`: the frame and the new row. -/
def dfAddRow (df : DFrame) : Res (DFrame × Int) := do
  let cols ← dfAppendRows df.cols
  if df.nRows < 2147483647 then pure ({ nRows := df.nRows + 1, cols := cols }, df.nRows)
  else .ub

/-- Access to `df->columns->elems[col]->elems[row]`. -/
def dfElem (df : DFrame) (r c : Int) : Res (DCol × Option DVal) := do
  let dc ← readAt df.cols c.toNat
  let e ← readAt dc.elems r.toNat
  pure (dc, e)

/-- The index checks of the cell functions, e.g. `src/nx_data_frame.c:322-323`. -/
def dfCheck (df : DFrame) (r c : Int) : Res Unit := do
  assertIndex r df.nRows
  assertIndex c df.cols.length

/-- `nx_data_frame_is_na`, `src/nx_data_frame.c:319-327`. -/
def dfIsNa (df : DFrame) (r c : Int) : Res Bool := do
  dfCheck df r c
  let e ← dfElem df r c
  pure (e.2 == none)

/-- The common part of the getters: index checks and `CHECK_DATA_FRAME_ELEMENT`,
`src/nx_data_frame.c:47-53`. -/
def dfGet (df : DFrame) (type : DCT) (r c : Int) : Res (DCol × DVal) := do
  dfCheck df r c
  let e ← dfElem df r c
  if e.1.type ≠ type then .fatal
  else match e.2 with
    | none => .fatal
    | some v => .ok (e.1, v)

/-- Reading a cell as `char *`. -/
def DVal.asStr : DVal → Res Bytes
  | .str s => .ok s
  | _ => .ub

/-- Reading a cell as `int *`; a factor or integer. -/
def DVal.asInt : DVal → Res Int
  | .int v => .ok v
  | _ => .ub

/-- Reading a cell as `double *`. -/
def DVal.asDbl : DVal → Res UInt64
  | .dbl v => .ok v
  | _ => .ub

/-- Reading a cell as `NXBool *`. -/
def DVal.asBool : DVal → Res Int
  | .bool v => .ok v
  | _ => .ub

/-- `nx_data_frame_get_string`, `src/nx_data_frame.c:329-338`. -/
def dfGetString (df : DFrame) (r c : Int) : Res Bytes := do
  let e ← dfGet df .string r c
  e.2.asStr

/-- `nx_data_frame_get_int`, `src/nx_data_frame.c:340-349`. -/
def dfGetInt (df : DFrame) (r c : Int) : Res Int := do
  let e ← dfGet df .int r c
  e.2.asInt

/-- `nx_data_frame_get_double`, `src/nx_data_frame.c:351-360`. -/
def dfGetDouble (df : DFrame) (r c : Int) : Res UInt64 := do
  let e ← dfGet df .double r c
  e.2.asDbl

/-- `nx_data_frame_get_bool`, `src/nx_data_frame.c:362-371`. -/
def dfGetBool (df : DFrame) (r c : Int) : Res Int := do
  let e ← dfGet df .bool r c
  e.2.asBool

/-- `nx_data_frame_get_factor`, `src/nx_data_frame.c:373-384`;
`nx_string_array_get` checks its index, `src/nx_string_array.c`. -/
def dfGetFactor (df : DFrame) (r c : Int) : Res Bytes := do
  let e ← dfGet df .factor r c
  let i ← e.2.asInt
  assertIndex i e.1.levels.length
  readAt e.1.levels i.toNat

/-- Storing a cell: `df->columns->elems[c]` is replaced by `dc` with cell `r` set. -/
def dfPut (df : DFrame) (dc : DCol) (r c : Int) (v : Option DVal) : Res DFrame := do
  let es ← writeAt dc.elems r.toNat v
  let cols ← writeAt df.cols c.toNat { dc with elems := es }
  pure { df with cols := cols }

/-- `nx_data_frame_set_na`, `src/nx_data_frame.c:428-436`. -/
def dfSetNa (df : DFrame) (r c : Int) : Res DFrame := do
  dfCheck df r c
  let e ← dfElem df r c
  dfPut df e.1 r c none

/-- The common part of the setters: index checks, `CHECK_DATA_COLUMN_TYPE` and the
store, e.g. `src/nx_data_frame.c:441-449`. -/
def dfSet (df : DFrame) (type : DCT) (r c : Int) (v : DVal) : Res DFrame := do
  dfCheck df r c
  let e ← dfElem df r c
  if e.1.type ≠ type then .fatal
  else dfPut df e.1 r c (some v)

/-- `nx_data_frame_set_string`, `src/nx_data_frame.c:438-450`. -/
def dfSetString (df : DFrame) (r c : Int) (s : Bytes) : Res DFrame := dfSet df .string r c (.str s)

/-- `nx_data_frame_set_int`, `src/nx_data_frame.c:452-465`. -/
def dfSetInt (df : DFrame) (r c : Int) (v : Int) : Res DFrame := dfSet df .int r c (.int v)

/-- `nx_data_frame_set_double`, `src/nx_data_frame.c:467-480`. -/
def dfSetDouble (df : DFrame) (r c : Int) (v : UInt64) : Res DFrame := dfSet df .double r c (.dbl v)

/-- `nx_data_frame_set_bool`, `src/nx_data_frame.c:482-495`. -/
def dfSetBool (df : DFrame) (r c : Int) (v : Int) : Res DFrame := dfSet df .bool r c (.bool v)

/-- `nx_data_frame_set_factor`, `src/nx_data_frame.c:497-513`. -/
def dfSetFactor (df : DFrame) (r c : Int) (s : Bytes) : Res DFrame := do
  dfCheck df r c
  let e ← dfElem df r c
  if e.1.type ≠ .factor then .fatal
  else
    let f := valueToFactor e.1.levels s
    dfPut df { e.1 with levels := f.1 } r c (some (.int f.2))

/-- The text a cell is converted to by `nx_data_frame_make_factor`,
`src/nx_data_frame.c:217-234` (all texts fit into the buffer of 256 bytes). -/
def factorText (fmtD : UInt64 → Bytes) (type : DCT) (v : DVal) : Res Bytes :=
  match type with
  | .string => v.asStr
  | .int => do
    let x ← v.asInt
    pure (intText x)
  | .double => do
    let x ← v.asDbl
    pure (fmtD x)
  | .bool => do
    let x ← v.asBool
    pure (if x ≠ 0 then [116, 114, 117, 101] else [102, 97, 108, 115, 101])
  | .factor => .fatal

/-- The loops of `nx_data_frame_make_factor`, `src/nx_data_frame.c:218-223` and
`:225-237`, from row `i` to row `n`; `dc` is the old column. `n` is `df->n_rows`, which
`nx_data_frame_set_factor` does not change. -/
def dfMakeFactorLoop (fmtD : UInt64 → Bytes) (dc : DCol) (c : Int) (n i : Nat) (df : DFrame) : Res DFrame :=
  if i < n then do
    let e ← readAt dc.elems i
    match e with
    | none => dfMakeFactorLoop fmtD dc c n (i + 1) df
    | some v => do
      let s ← factorText fmtD dc.type v
      let df ← dfSetFactor df i c s
      dfMakeFactorLoop fmtD dc c n (i + 1) df
  else .ok df
termination_by n - i

/-- `nx_data_frame_make_factor`, `src/nx_data_frame.c:206-241`. -/
def dfMakeFactor (fmtD : UInt64 → Bytes) (df : DFrame) (c : Int) : Res DFrame := do
  let dc ← dfColumn df c
  if dc.type = .factor then pure df
  else do
    let cols ← writeAt df.cols c.toNat (dcNew .factor dc.label df.nRows)
    dfMakeFactorLoop fmtD dc c df.nRows.toNat 0 { df with cols := cols }

/-- An argument of `nx_data_frame_append_row` or `nx_data_frame_set`. -/
inductive DArg
  | str (s : Bytes)
  | int (v : Int)
  | dbl (bits : UInt64)
deriving DecidableEq, Repr

/-- The body of the loop of `nx_data_frame_vset`, `src/nx_data_frame.c:392-413`;
fetching an argument of another type is undefined (`NXBool` is `int`). -/
def dfVsetOne (df : DFrame) (r c : Int) (type : DCT) (a : DArg) : Res DFrame :=
  match type, a with
  | .int, .int v => dfSetInt df r c v
  | .bool, .int v => dfSetBool df r c v
  | .double, .dbl v => dfSetDouble df r c v
  | .string, .str s => dfSetString df r c s
  | .factor, .str s => dfSetFactor df r c s
  | _, _ => .ub

/-- The loop of `nx_data_frame_vset`, `src/nx_data_frame.c:391-414`, from column `c`. -/
def dfVsetLoop (df : DFrame) (r : Int) : Nat → List DArg → Res DFrame
  | c, [] => if c < df.cols.length then .ub else .ok df
  | c, a :: as =>
    if c < df.cols.length then do
      let dc ← readAt df.cols c
      let df ← dfVsetOne df r c dc.type a
      dfVsetLoop df r (c + 1) as
    else .ok df

/-- `nx_data_frame_vset`, `nx_data_frame_set`, `src/nx_data_frame.c:386-426`. -/
def dfVset (df : DFrame) (r : Int) (args : List DArg) : Res DFrame := do
  assertIndex r df.nRows
  dfVsetLoop df r 0 args

/-- `nx_data_frame_append_row`, `src/nx_data_frame.c:300-311`. -/
def dfAppendRow (df : DFrame) (args : List DArg) : Res (DFrame × Int) := do
  let x ← dfAddRow df
  let df ← dfVset x.1 x.2 args
  pure (df, x.2)

end Nx
