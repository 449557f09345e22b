import Verif.Core

/-!
# Specification of matrices as text
-/

namespace Nx

section
variable {D : Type}

/-- The numbers of a text, from the start as long as there are any. -/
inductive Numbers (scan : Bytes → Option (D × Nat)) : Bytes → List D → Prop
  | stop {s} : scan s = none → Numbers scan s []
  | more {s d k l} : scan s = some (d, k) → Numbers scan (s.drop k) l → Numbers scan s (d :: l)

/-- `scan` uses at least one byte and only bytes of the text. -/
def ScanOk (scan : Bytes → Option (D × Nat)) : Prop := ∀ s d k, scan s = some (d, k) → 0 < k ∧ k ≤ s.length

/-- The text of the number is read back as the same number, at the start or behind a space, when a space or the end of the line follows. -/
structure TextOk (fmt : D → Bytes) (scan : Bytes → Option (D × Nat)) (d : D) : Prop where
  plain : ∀ b ∈ fmt d, b ≠ 0 ∧ b ≠ 10
  back : ∀ c rest, c = 10 ∨ c = 32 → scan (fmt d ++ c :: rest) = some (d, (fmt d).length)
  space : ∀ c rest, c = 10 ∨ c = 32 → scan (32 :: (fmt d ++ c :: rest)) = some (d, (fmt d).length + 1)

/-- The text of a row. -/
def rowText (fmt : D → Bytes) : List D → Bytes
  | [] => []
  | [d] => fmt d ++ [10]
  | d :: l => fmt d ++ 32 :: rowText fmt l

end

end Nx
