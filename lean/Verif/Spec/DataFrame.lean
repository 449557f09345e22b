import Verif.Model.DataFrame

/-!
# Specification of data frames

A data frame is a table: named columns with a type, a number of rows, and a function
that gives the value of every cell. The operations update the function at the cells
they are about.
-/

namespace Nx

/-- The value of a cell; a factor cell holds its label. -/
inductive AVal
  | str (s : Bytes)
  | int (v : Int)
  | dbl (bits : UInt64)
  | bool (v : Int)
  | fac (label : Bytes)
deriving DecidableEq, Repr

/-- The type of column a value belongs to. -/
def AVal.type : AVal → DCT
  | .str _ => .string
  | .int _ => .int
  | .dbl _ => .double
  | .bool _ => .bool
  | .fac _ => .factor

/-- A table; `cell r c` is the value in row `r` of column `c`, `none` if missing. -/
structure ATab where
  cols : List (DCT × Bytes)
  n : Nat
  cell : Nat → Nat → Option AVal

/-- The table with one cell replaced. -/
def ATab.update (a : ATab) (r c : Nat) (v : Option AVal) : ATab :=
  { a with cell := fun r' c' => if r' = r ∧ c' = c then v else a.cell r' c' }

/-- Row and column exist. -/
abbrev ATab.Has (a : ATab) (r c : Int) : Prop := 0 ≤ r ∧ r < a.n ∧ 0 ≤ c ∧ c < a.cols.length

/-- The label a value gets when its column becomes a factor. -/
def AVal.text (fmtD : UInt64 → Bytes) : AVal → Bytes
  | .str s => s
  | .int v => intText v
  | .dbl d => fmtD d
  | .bool v => if v = 0 then bytesOf "false" else bytesOf "true"
  | .fac l => l

/-- The value an argument of `append_row` stands for in a column of a type. -/
def argVal : DCT → DArg → Option AVal
  | .int, .int v => some (.int v)
  | .bool, .int v => some (.bool v)
  | .double, .dbl v => some (.dbl v)
  | .string, .str s => some (.str s)
  | .factor, .str s => some (.fac s)
  | _, _ => none

/-- The values of a row given as arguments: one argument of the right type for every
column (more are ignored). -/
def argVals : List DCT → List DArg → Option (List AVal)
  | [], _ => some []
  | _ :: _, [] => none
  | t :: ts, a :: as =>
    match argVal t a, argVals ts as with
    | some v, some vs => some (v :: vs)
    | _, _ => none

/-- The calls of the interface of data frames. -/
inductive DfOp
  | addColumn (type : DCT) (label : Bytes)
  | addRow
  | setNa (r c : Int)
  | set (r c : Int) (v : AVal)
  | setRow (r : Int) (args : List DArg)
  | appendRow (args : List DArg)
  | makeFactor (c : Int)
  | isNa (r c : Int)
  | get (type : DCT) (r c : Int)

/-- What a call returns. -/
inductive DfObs
  | nothing
  | na (b : Bool)
  | val (v : AVal)
  | row (r : Int)
deriving DecidableEq, Repr

/-- A new row of missing cells. No more rows than an `int` can count. -/
def ATab.addRow (a : ATab) : Res ATab :=
  if a.n < 2147483647 then
    .ok { a with n := a.n + 1, cell := fun r c => if r = a.n then none else a.cell r c }
  else if a.cols = [] then .ub else .fatal

/-- The cells of a row replaced by given values. -/
def ATab.setRow (a : ATab) (r : Int) (args : List DArg) : Res ATab :=
  if 0 ≤ r ∧ r < a.n then
    match argVals (a.cols.map Prod.fst) args with
    | some vs => .ok { a with cell := fun r' c => if (r' : Int) = r ∧ c < a.cols.length then vs[c]? else a.cell r' c }
    | none => .ub
  else .fatal

/-- What every call does to the table. -/
def ATab.step (fmtD : UInt64 → Bytes) (a : ATab) : DfOp → Res (ATab × DfObs)
  | .addColumn t l =>
    .ok ({ a with
      cols := a.cols ++ [(t, l)]
      cell := fun r c => if c = a.cols.length then none else a.cell r c }, .nothing)
  | .addRow => do
    let a' ← a.addRow
    pure (a', .row a.n)
  | .setNa r c => if a.Has r c then .ok (a.update r.toNat c.toNat none, .nothing) else .fatal
  | .set r c v =>
    if a.Has r c ∧ a.cols[c.toNat]?.map Prod.fst = some v.type then
      .ok (a.update r.toNat c.toNat (some v), .nothing)
    else .fatal
  | .setRow r args => do
    let a' ← a.setRow r args
    pure (a', .nothing)
  | .appendRow args => do
    let a' ← a.addRow
    let a'' ← a'.setRow a.n args
    pure (a'', .row a.n)
  | .makeFactor c =>
    if 0 ≤ c ∧ c < a.cols.length then
      .ok ({ a with
        cols := a.cols.mapIdx (fun i x => if (i : Int) = c then (.factor, x.2) else x)
        cell := fun r i => if (i : Int) = c then (a.cell r i).map (fun v => .fac (v.text fmtD)) else a.cell r i },
        .nothing)
    else .fatal
  | .isNa r c => if a.Has r c then .ok (a, .na (a.cell r.toNat c.toNat == none)) else .fatal
  | .get t r c =>
    if a.Has r c ∧ a.cols[c.toNat]?.map Prod.fst = some t then
      match a.cell r.toNat c.toNat with
      | some v => .ok (a, .val v)
      | none => .fatal
    else .fatal

/-- A history of calls on a new data frame: the table and what the calls returned. -/
def ATab.run (fmtD : UInt64 → Bytes) (a : ATab) : List DfOp → Res (ATab × List DfObs)
  | [] => .ok (a, [])
  | op :: ops => do
    let x ← a.step fmtD op
    let y ← x.1.run fmtD ops
    pure (y.1, x.2 :: y.2)

/-- The table without columns and rows. -/
def ATab.empty : ATab := { cols := [], n := 0, cell := fun _ _ => none }

/-- The same calls on the model. -/
def dfStep (fmtD : UInt64 → Bytes) (df : DFrame) : DfOp → Res (DFrame × DfObs)
  | .addColumn t l => .ok (dfAddColumn df t l, .nothing)
  | .addRow => do
    let x ← dfAddRow df
    pure (x.1, .row x.2)
  | .setNa r c => do
    let df ← dfSetNa df r c
    pure (df, .nothing)
  | .set r c v => do
    let df ← (match v with
      | .str s => dfSetString df r c s
      | .int x => dfSetInt df r c x
      | .dbl x => dfSetDouble df r c x
      | .bool x => dfSetBool df r c x
      | .fac s => dfSetFactor df r c s)
    pure (df, .nothing)
  | .setRow r args => do
    let df ← dfVset df r args
    pure (df, .nothing)
  | .appendRow args => do
    let x ← dfAppendRow df args
    pure (x.1, .row x.2)
  | .makeFactor c => do
    let df ← dfMakeFactor fmtD df c
    pure (df, .nothing)
  | .isNa r c => do
    let b ← dfIsNa df r c
    pure (df, .na b)
  | .get t r c =>
    match t with
    | .string => do
      let s ← dfGetString df r c
      pure (df, .val (.str s))
    | .int => do
      let x ← dfGetInt df r c
      pure (df, .val (.int x))
    | .double => do
      let x ← dfGetDouble df r c
      pure (df, .val (.dbl x))
    | .bool => do
      let x ← dfGetBool df r c
      pure (df, .val (.bool x))
    | .factor => do
      let s ← dfGetFactor df r c
      pure (df, .val (.fac s))

/-- A history of calls on the model. -/
def dfRun (fmtD : UInt64 → Bytes) (df : DFrame) : List DfOp → Res (DFrame × List DfObs)
  | [] => .ok (df, [])
  | op :: ops => do
    let x ← dfStep fmtD df op
    let y ← dfRun fmtD x.1 ops
    pure (y.1, x.2 :: y.2)

end Nx
