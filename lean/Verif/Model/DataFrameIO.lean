import Verif.Model.DataFrame
import Verif.Model.Str

/-!
# Model of writing and reading data frames

`src/nx_data_frame.c:515-650` and the part of `src/nx_csv_parser.c` that makes a data
frame of CSV records.

Simplifications, besides those of `Verif/Model/DataFrame.lean`. Streams do not fail;
writing is the list of bytes written, reading gets the list of bytes of the file. The
conversions `%.17g` (`fmtD`), `atof` (`atof`) and `strtod` (`dbl`) are parameters.
-/

namespace Nx

/-- A cell that is not missing, `src/nx_data_frame.c:545-588`. -/
def dfCellOf (fmtD : UInt64 → Bytes) (df : DFrame) (r c : Nat) : DCT → Res Bytes
  | .string => do
    let s ← dfGetString df r c
    pure (fputsDoubleQuoted (some s))
  | .factor => do
    let s ← dfGetFactor df r c
    pure (fputsDoubleQuoted (some s))
  | .int => do
    let v ← dfGetInt df r c
    pure (intText v)
  | .double => do
    let v ← dfGetDouble df r c
    pure (fmtD v)
  | .bool => do
    let v ← dfGetBool df r c
    pure (if v ≠ 0 then [116, 114, 117, 101] else [102, 97, 108, 115, 101])

/-- One cell, `src/nx_data_frame.c:543-589`. -/
def dfCellText (fmtD : UInt64 → Bytes) (df : DFrame) (r c : Nat) : Res Bytes := do
  let na ← dfIsNa df r c
  if na then pure []
  else do
    let dc ← dfColumn df c
    dfCellOf fmtD df r c dc.type

/-- The loop over the columns of a row, `src/nx_data_frame.c:542-600`, from column `c`. -/
def dfPrintRow (fmtD : UInt64 → Bytes) (sep : Bytes) (df : DFrame) (r nc c : Nat) : Res Bytes :=
  if c < nc then do
    let t ← dfCellText fmtD df r c
    let rest ← dfPrintRow fmtD sep df r nc (c + 1)
    pure (t ++ (if c + 1 ≠ nc then sep else [10]) ++ rest)
  else .ok []
termination_by nc - c

/-- The loop over the rows, `src/nx_data_frame.c:541-601`, from row `r`. -/
def dfPrintRows (fmtD : UInt64 → Bytes) (sep : Bytes) (df : DFrame) (nc nr r : Nat) : Res Bytes :=
  if r < nr then do
    let t ← dfPrintRow fmtD sep df r nc 0
    let rest ← dfPrintRows fmtD sep df nc nr (r + 1)
    pure (t ++ rest)
  else .ok []
termination_by nr - r

/-- The labels, `src/nx_data_frame.c:523-538`, from column `c`. -/
def dfPrintLabels (sep : Bytes) (df : DFrame) (nc c : Nat) : Res Bytes :=
  if c < nc then do
    let dc ← dfColumn df c
    let rest ← dfPrintLabels sep df nc (c + 1)
    pure (fputsReadable (some dc.label) ++ (if c + 1 ≠ nc then sep else [10]) ++ rest)
  else .ok []
termination_by nc - c

/-- `nx_data_frame_fprintf`, `src/nx_data_frame.c:515-604`: the bytes written. -/
def dfFprintf (fmtD : UInt64 → Bytes) (df : DFrame) (sep : Bytes) : Res Bytes := do
  let l ← dfPrintLabels sep df df.cols.length 0
  let t ← dfPrintRows fmtD sep df df.cols.length df.nRows.toNat 0
  pure (l ++ t)

/-- `nx_data_frame_save_csv_stream`, `src/nx_data_frame.c:607-613`. -/
def dfSaveCsv (fmtD : UInt64 → Bytes) (df : DFrame) : Res Bytes := dfFprintf fmtD df [44]

/-- `nx_csv_field_set_data_frame`, `src/nx_csv_parser.c:86-101`. -/
def csvSetCell (atof : Bytes → UInt64) (df : DFrame) (r c : Int) (f : CField) : Res DFrame :=
  match f.text with
  | none => dfSetNa df r c
  | some t => do
    let dc ← dfColumn df c
    match dc.type with
    | .string => dfSetString df r c t
    | .bool => dfSetBool df r c (if t = [116, 114, 117, 101] then 1 else 0)
    | .double => dfSetDouble df r c (atof t)
    | .int => do
      let v ← atoi t
      dfSetInt df r c v
    | .factor => dfSetFactor df r c t

/-- The loop over the columns of a record, `src/nx_csv_parser.c:232-235`, from column `c`. -/
def csvFillRow (atof : Bytes → UInt64) (record : List CField) (r : Int) (nc c : Nat) (df : DFrame) : Res DFrame :=
  if c < nc then do
    let f ← readAt record c
    let df ← csvSetCell atof df r c f
    csvFillRow atof record r nc (c + 1) df
  else .ok df
termination_by nc - c

/-- `nx_csv_data_fill_data_frame`, `src/nx_csv_parser.c:225-237`, the records but the
first. -/
def csvFill (atof : Bytes → UInt64) (nc : Nat) : List (List CField) → DFrame → Res DFrame
  | [], df => .ok df
  | rec :: recs, df => do
    let x ← dfAddRow df
    let df ← csvFillRow atof rec x.2 nc 0 x.1
    csvFill atof nc recs df

/-- The loop adding the columns, `src/nx_csv_parser.c:250-253`, from column `i`. -/
def csvAddColumns (labels : List CField) (types : List DCT) (nc i : Nat) (df : DFrame) : Res DFrame :=
  if i < nc then do
    let f ← readAt labels i
    let t ← readAt types i
    csvAddColumns labels types nc (i + 1) (dfAddColumn df t (match f.text with | none => [] | some l => l))
  else .ok df
termination_by nc - i

/-- `nx_csv_data_to_data_frame`, `src/nx_csv_parser.c:239-259`. -/
def csvToDf (atof : Bytes → UInt64) (recs : List (List CField)) (nc : Nat) : Res DFrame :=
  if ¬ (0 < recs.length) ∨ ¬ (0 < nc) then .fatal
  else do
    let types ← csvColumnTypes recs nc
    let labels ← readAt recs 0
    let df ← csvAddColumns labels types nc 0 dfAlloc
    csvFill atof nc recs.tail df

/-- The loop reading the stream, `src/nx_data_frame.c:620-632`: `out` are the `i` bytes
stored so far in an allocation of `cap` bytes. The result is the text without the
terminating zero that is stored behind it. -/
def dfReadAll : (cap : Int) → (out inp : Bytes) → Res Bytes
  | cap, out, [] => if (out.length : Int) < cap then .ok out else .ub
  | cap, out, b :: inp =>
    if (out.length : Int) < cap then
      if (out.length : Int) + 1 ≥ cap - 2 then
        if cap * 2 ≤ 2147483647 then dfReadAll (cap * 2) (out ++ [b]) inp else .ub
      else dfReadAll cap (out ++ [b]) inp
    else .ub

/-- The body of the loop over the columns, `src/nx_data_frame.c:640-641`, for the
column `col`. -/
def dfFactorsStep (fmtD : UInt64 → Bytes) (df : DFrame) (col : Int) : Res DFrame := do
  let dc ← dfColumn df col
  if dc.type = .string then dfMakeFactor fmtD df col else pure df

/-- The loop of `strings_as_factors`, `src/nx_data_frame.c:638-642`. The loop increments
`i`, the number of bytes read, and not `col`. -/
def dfFactorsLoop (fmtD : UInt64 → Bytes) (col i : Int) (df : DFrame) : Res DFrame :=
  if col < df.cols.length then do
    let df ← dfFactorsStep fmtD df col
    if _h : i < 2147483647 then dfFactorsLoop fmtD col (i + 1) df else .ub
  else .ok df
termination_by (2147483647 - i).toNat

/-- `nx_data_frame_load_csv_stream`, `src/nx_data_frame.c:615-650`. -/
def dfLoadCsv (fmtD : UInt64 → Bytes) (dbl : Bytes → Bool) (atof : Bytes → UInt64) (inp : Bytes)
    (stringsAsFactors : Bool) : Res DFrame := do
  let text ← dfReadAll 1024 [] inp
  let p ← csvParse dbl text
  let df ← csvToDf atof p.1 p.2
  if stringsAsFactors then dfFactorsLoop fmtD 0 text.length df else pure df

end Nx
