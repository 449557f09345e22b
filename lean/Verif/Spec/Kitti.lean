import Verif.Core
import Verif.Model.CNum

/-! # Specification of the reader of KITTI sequences: numbers in a text, matrices by rows and by columns -/

namespace Nx

section
variable {D : Type}

/-- Reading numbers from `t` one after the other gives `l` and leaves `t'`. -/
inductive Reads (scan : Bytes → Option (D × Bytes)) : Bytes → List D → Bytes → Prop
  | nil (t : Bytes) : Reads scan t [] t
  | cons {t u t' : Bytes} {d : D} {l : List D} (h : scan t = some (d, u)) (r : Reads scan u l t') : Reads scan t (d :: l) t'

/-- `l` are the numbers at the start of the text, up to the first place where there is none. -/
def NumsOf (scan : Bytes → Option (D × Bytes)) (t : Bytes) (l : List D) : Prop :=
  ∃ t', Reads scan t l t' ∧ scan t' = none

/-- `P` holds by columns the 3×4 matrix that `l` lists by rows. -/
def ByColumns (l P : List D) : Prop := P.length = 12 ∧ ∀ r < 3, ∀ c < 4, P[c * 3 + r]? = l[r * 4 + c]?

/-- All bytes are white space. -/
def Blank (w : Bytes) : Prop := ∀ b ∈ w, isSpaceB b = true

/-- What may follow a number: white space, or nothing. -/
def Ends (t : Bytes) : Prop := t = [] ∨ ∃ b r, t = b :: r ∧ isSpaceB b = true

/-- `fmt` writes numbers in a form that `scan` reads back; there is no number in white space; each number takes
at least one byte. -/
structure NumText (fmt : D → Bytes) (scan : Bytes → Option (D × Bytes)) : Prop where
  back : ∀ (w : Bytes) (d : D) (t : Bytes), Blank w → Ends t → scan (w ++ fmt d ++ t) = some (d, t)
  blank : ∀ w, Blank w → scan w = none
  shrink : ∀ t d u, scan t = some (d, u) → u.length < t.length

/-- The text consists of the numbers of `l`, with any white space between, before and after. -/
inductive Laid (fmt : D → Bytes) : List D → Bytes → Prop
  | nil {w : Bytes} (h : Blank w) : Laid fmt [] w
  | cons {w t : Bytes} {d : D} {l : List D} (hw : Blank w) (ht : Ends t) (r : Laid fmt l t) :
      Laid fmt (d :: l) (w ++ fmt d ++ t)

/-- A line of the calibration file: name of the camera, then twelve numbers. -/
def CalibLine (scan : Bytes → Option (D × Bytes)) (i : Nat) (t : Bytes) (l : List D) (t' : Bytes) : Prop :=
  l.length = 12 ∧ ∃ u u', t = bytesOf "P" ++ natText i ++ bytesOf ":" ++ u ∧ Reads scan u l u' ∧ t' = u'.dropWhile isSpaceB

end

end Nx
