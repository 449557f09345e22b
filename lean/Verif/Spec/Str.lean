import Verif.Core

/-!
# Specification of escaped, double-quoted and hexadecimal texts
-/

namespace Nx

/-- The escape letters and the characters they stand for (the documented set). -/
def escapeTable : List (Byte × Byte) :=
  [(114, 13), (116, 9), (110, 10), (92, 92), (102, 12), (98, 8), (34, 34)]

/-- `Escaped t s`: the text `t` is a backslash-escaped spelling of `s`. -/
inductive Escaped : Bytes → Bytes → Prop
  | nil : Escaped [] []
  | plain {c : Byte} {t s : Bytes} : c ≠ 92 → Escaped t s → Escaped (c :: t) (c :: s)
  | esc {d e : Byte} {t s : Bytes} :
      (d, e) ∈ escapeTable → Escaped t s → Escaped (92 :: d :: t) (e :: s)

/-- `Doubled t s`: the text `t` spells `s` with every quote doubled. -/
inductive Doubled : Bytes → Bytes → Prop
  | nil : Doubled [] []
  | plain {c : Byte} {t s : Bytes} : c ≠ 34 → Doubled t s → Doubled (c :: t) (c :: s)
  | quote {t s : Bytes} : Doubled t s → Doubled (34 :: 34 :: t) (34 :: s)

/-- The lowercase hexadecimal digits. -/
def hexDigits : Bytes := bytesOf "0123456789abcdef"

/-- The value of a hexadecimal digit, as position in the digit list. -/
def digitValue (d : Byte) : Nat := hexDigits.idxOf d

end Nx
