import Verif.Spec.Lexer
import Verif.Spec.Str
import Verif.Model.Csv

/-!
# Specification of CSV texts

The grammar of CSV texts, independent of the lexer and the parser: cells, rows,
tables and the texts that spell them.
-/

namespace Nx

/-- A cell of a CSV table: nothing, unquoted text, or quoted text (given by the
string it stands for). -/
inductive Cell
  | missing
  | plain (w : Bytes)
  | quoted (s : Bytes)
deriving DecidableEq, Repr

/-- A character that may be part of an unquoted cell: no quote, comma or newline. -/
def PlainChar (b : Byte) : Prop := b ≠ 34 ∧ b ≠ 44 ∧ b ≠ 10

/-- The text `t` spells the cell. -/
inductive CellText : Cell → Bytes → Prop
  | missing : CellText .missing []
  | plain {w} : w ≠ [] → (∀ b ∈ w, PlainChar b) → CellText (.plain w) w
  | quoted {s t} : Doubled t s → CellText (.quoted s) (34 :: (t ++ [34]))

/-- The text `t` spells a row: cells with a comma between neighbours. -/
inductive RowText : List Cell → Bytes → Prop
  | one {c t} : CellText c t → RowText [c] t
  | cons {c t cs ts} : CellText c t → RowText cs ts → RowText (c :: cs) (t ++ 44 :: ts)

/-- The text `t` spells a list of rows, one per line, the last newline being
optional. A row that would be an empty line cannot be spelled. -/
inductive TableText : List (List Cell) → Bytes → Prop
  | last {r t} : RowText r t → r ≠ [.missing] → TableText [r] t
  | lastNl {r t} : RowText r t → r ≠ [.missing] → TableText [r] (t ++ [10])
  | cons {r t rs ts} : RowText r t → r ≠ [.missing] → TableText rs ts → TableText (r :: rs) (t ++ 10 :: ts)

/-- All rows have `n` cells. -/
def Rect {α : Type} (rows : List (List α)) (n : Nat) : Prop := ∀ r ∈ rows, r.length = n

/-- What is kept of a cell: its text and its own type (quoted and missing cells are
strings). -/
def Cell.field (dbl : Bytes → Bool) : Cell → CField
  | .missing => ⟨none, .string⟩
  | .plain w => ⟨some w, csvFieldType dbl w⟩
  | .quoted s => ⟨some s, .string⟩

/-- The first token of a text and the text behind it. -/
inductive CsvTokAt : Bytes → CTok → Bytes → Prop
  | eof : CsvTokAt [] .eof []
  | comma {r} : CsvTokAt (44 :: r) .comma r
  | eor {r} : CsvTokAt (10 :: r) .eor r
  | field {w r} : w ≠ [] → (∀ b ∈ w, PlainChar b) → (∀ b r', r = b :: r' → b = 44 ∨ b = 10) →
      CsvTokAt (w ++ r) (.field w) r
  | qfield {t s r} : Doubled t s → (∀ b r', r = b :: r' → b ≠ 34) →
      CsvTokAt (34 :: (t ++ 34 :: r)) (.qfield s) r

end Nx
