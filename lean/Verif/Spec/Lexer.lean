import Verif.Model.Lexer

/-!
# Specification vocabulary for the lexer

What part of a text the lexer sees, its state in terms of the text already read
and the text still to come, and the grammar of numbers and quoted strings.
-/

namespace Nx

/-- The part of a text in front of its end mark: the zero byte or, as `char` is
signed and `EOF` is -1, the byte 255. -/
def lexVisible (T : Bytes) : Bytes := T.takeWhile (fun b => b != 0 && b != 255)

/-- Columns taken by a character. -/
def charWidth (b : Byte) : Nat := if b = 9 then 8 else 1

/-- Column reached after a text: the width of what follows its last line break. -/
def columnOf (s : Bytes) : Nat :=
  ((s.reverse.takeWhile (fun b => b != 10 && b != 13)).map charWidth).sum

/-- The value of `nx_lexer_current_char` when `rem` is ahead: its first character,
or `EOF`. -/
def curC : Bytes → Int
  | [] => -1
  | b :: _ => schar b

/-- `l` is a lexer over the text `T` that has passed `pre` and has `rem` ahead of
it; the first character of `rem` is the current one. -/
structure LexAt (T : Bytes) (l : Lexer) (pre rem : Bytes) : Prop where
  text : l.text = T
  split : lexVisible T = pre ++ rem
  pos : l.pos = pre.length
  cur : l.c = curC rem
  line : l.line = 1 + ((pre ++ rem.take 1).count 10 : Nat)
  col : l.col = columnOf (pre ++ rem.take 1) + (if rem = [] then 1 else 0)

/-- A decimal digit. -/
def IsDigit (b : Byte) : Prop := 48 ≤ b.toNat ∧ b.toNat ≤ 57

instance (b : Byte) : Decidable (IsDigit b) := by unfold IsDigit; infer_instance

/-- One or more digits. -/
def Digits (w : Bytes) : Prop := w ≠ [] ∧ ∀ b ∈ w, IsDigit b

/-- Integer part of a JSON number (without sign): `0` or digits not starting with `0`. -/
def JInt (w : Bytes) : Prop := w = [48] ∨ (Digits w ∧ w.head? ≠ some 48)

/-- Fraction part, possibly absent. -/
def JFrac (w : Bytes) : Prop := w = [] ∨ ∃ d, w = 46 :: d ∧ Digits d

/-- Exponent part, possibly absent. -/
def JExp (w : Bytes) : Prop :=
  w = [] ∨ ∃ e s d, w = e :: (s ++ d) ∧ (e = 101 ∨ e = 69) ∧ (s = [] ∨ s = [43] ∨ s = [45]) ∧ Digits d

/-- The JSON number made of these parts. -/
structure JParts (sign int frac exp : Bytes) : Prop where
  sign : sign = [] ∨ sign = [45]
  int : JInt int
  frac : JFrac frac
  exp : JExp exp

/-- JSON numbers (RFC 8259). -/
def JNumber (w : Bytes) : Prop :=
  ∃ sign int frac exp, w = sign ++ int ++ frac ++ exp ∧ JParts sign int frac exp

/-- The text `r` behind a number with these parts cannot continue it: no digit, no
exponent mark unless there is an exponent already, no point unless there is a
fraction or exponent already. -/
def NumStop (frac exp r : Bytes) : Prop :=
  ∀ b r', r = b :: r' →
    ¬ IsDigit b ∧ (exp = [] → b ≠ 101 ∧ b ≠ 69) ∧ (frac = [] → exp = [] → b ≠ 46)

/-- Characters that may stand unescaped inside a quoted string. -/
def PlainStr (b : Byte) : Prop := b ≠ 34 ∧ b ≠ 92

/-- Characters that may follow a backslash: `" \ / b f n r t`. -/
def EscChar (b : Byte) : Prop := b ∈ ([34, 92, 47, 98, 102, 110, 114, 116] : Bytes)

instance (b : Byte) : Decidable (EscChar b) := by unfold EscChar; infer_instance

/-- Text between the quotes of a string. -/
inductive QBody : Bytes → Prop
  | nil : QBody []
  | plain {b w} : PlainStr b → QBody w → QBody (b :: w)
  | esc {b w} : EscChar b → QBody w → QBody (92 :: b :: w)

end Nx
