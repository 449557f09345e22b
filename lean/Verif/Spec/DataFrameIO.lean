import Verif.Spec.DataFrame
import Verif.Spec.Csv

/-!
# Which tables survive being written as CSV, and what is read back
-/

namespace Nx

/-- The type of column that a column of a type becomes: factors come back as strings. -/
def DCT.loaded : DCT → DCT
  | .factor => .string
  | t => t

/-- What a cell becomes: factor labels come back as strings. -/
def AVal.loaded : AVal → AVal
  | .fac l => .str l
  | v => v

/-- The table that is read back: same labels, same rows, same contents; factor columns
are string columns with the same texts. -/
def ATab.loaded (a : ATab) : ATab :=
  { cols := a.cols.map (fun x => (x.1.loaded, x.2)), n := a.n, cell := fun r c => (a.cell r c).map AVal.loaded }

/-- A byte that may appear in a text: the lexer takes 0 and 255 for the end. -/
def TextByte (b : Byte) : Prop := b ≠ 0 ∧ b ≠ 255

/-- A byte that may appear in a label: the writer would escape the others with
backslashes, which the reader does not understand. -/
def LabelByte (b : Byte) : Prop :=
  TextByte b ∧ b ≠ 34 ∧ b ≠ 92 ∧ b ≠ 10 ∧ b ≠ 13 ∧ b ≠ 9 ∧ b ≠ 8 ∧ b ≠ 12

/-- The C library writes and reads this `double` faithfully. -/
structure DoubleOk (fmtD : UInt64 → Bytes) (dbl : Bytes → Bool) (atof : Bytes → UInt64) (d : UInt64) : Prop where
  ne : fmtD d ≠ []
  chars : ∀ b ∈ fmtD d, PlainChar b ∧ TextByte b
  notBool : fmtD d ≠ bytesOf "true" ∧ fmtD d ≠ bytesOf "false"
  all : dbl (fmtD d) = true
  back : atof (fmtD d) = d

/-- The value of a cell can be written. -/
def AVal.Ok (fmtD : UInt64 → Bytes) (dbl : Bytes → Bool) (atof : Bytes → UInt64) : AVal → Prop
  | .str s => ∀ b ∈ s, TextByte b
  | .fac s => ∀ b ∈ s, TextByte b
  | .int v => InI32 v
  | .bool v => v = 0 ∨ v = 1
  | .dbl d => DoubleOk fmtD dbl atof d

/-- The table can be written and read back: at least one column, ordinary labels,
writable cells; no missing cell in a table of a single column; integer and boolean
columns are not entirely missing; in a column of `double` some cell does not look like
an `int`. -/
structure Savable (fmtD : UInt64 → Bytes) (dbl : Bytes → Bool) (atof : Bytes → UInt64) (a : ATab) : Prop where
  cols : a.cols ≠ []
  rows : a.n ≤ 2147483647
  labels : ∀ x ∈ a.cols, ∀ b ∈ x.2, LabelByte b
  cells : ∀ r c v, r < a.n → c < a.cols.length → a.cell r c = some v → v.Ok fmtD dbl atof
  single : a.cols.length = 1 → ∀ r, r < a.n → a.cell r 0 ≠ none
  present : ∀ (c : Nat) (l : Bytes), a.cols[c]? = some (.int, l) ∨ a.cols[c]? = some (.bool, l) →
    ∃ r, r < a.n ∧ a.cell r c ≠ none
  double : ∀ (c : Nat) (l : Bytes), a.cols[c]? = some (.double, l) →
    ∃ r d, r < a.n ∧ a.cell r c = some (.dbl d) ∧ ¬ ((strtol 0 (fmtD d)).2 = [] ∧ InI32 (strtol 0 (fmtD d)).1)

end Nx
