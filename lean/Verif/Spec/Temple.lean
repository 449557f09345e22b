import Verif.Spec.Kitti

/-! # Specification of the reader of Temple Color 128 sequences: names of attributes, lines of a file -/

namespace Nx

/-- The name of an attribute with the value of its constant, `include/virg/nexus/nx_temple_color_128.h:75-85`. -/
def tcConst : List (String × Nat) :=
  [("VI", 0x0001), ("SV", 0x0002), ("OCC", 0x0004), ("DEF", 0x0008), ("MB", 0x0010), ("FM", 0x0020), ("IPR", 0x0040), ("OPR", 0x0080),
   ("OV", 0x0100), ("BC", 0x0200), ("LR", 0x0400)]

/-- A line that starts with the name `a`; it has at most six bytes, as many as are read at once. -/
def AttrLine (a : String) (l : Bytes) : Prop := (∃ x, l = bytesOf a ++ x) ∧ l.length ≤ 6 ∧ (10 : Byte) ∉ l

/-- The file lists attributes, one in a line, up to its end, with or without an end of the last line, or up to a line that starts
with no name of an attribute. -/
inductive AttrFile : List String → Bytes → Prop
  | nil {t : Bytes} (h : ∀ p ∈ tcConst, ¬ bytesOf p.1 <+: t) : AttrFile [] t
  | last {a : String} {l : Bytes} (h : AttrLine a l) : AttrFile [a] l
  | cons {a : String} {as : List String} {l t : Bytes} (h : AttrLine a l) (r : AttrFile as t) : AttrFile (a :: as) (l ++ 10 :: t)

section
variable {D : Type}

/-- `fmt` writes numbers, without white space in front, in a form that `scan` reads back before a comma, white space or the end;
there is no number in an empty text. -/
structure FieldText (fmt : D → Bytes) (scan : Bytes → Option (D × Bytes)) : Prop where
  back : ∀ (d : D) (t : Bytes), (Ends t ∨ ∃ r, t = 44 :: r) → scan (fmt d ++ t) = some (d, t)
  head : ∀ d b r, fmt d = b :: r → isSpaceB b = false
  empty : scan [] = none

/-- A row of four numbers with commas between, ended by white space (at least a byte). -/
def boxLine (fmt : D → Bytes) (b : D × D × D × D) (w : Bytes) : Bytes :=
  fmt b.1 ++ 44 :: (fmt b.2.1 ++ 44 :: (fmt b.2.2.1 ++ 44 :: (fmt b.2.2.2 ++ w)))

/-- The rows of a file of boxes; the end of the last line may lack. -/
inductive BoxFile (fmt : D → Bytes) : List (D × D × D × D) → Bytes → Prop
  | nil : BoxFile fmt [] []
  | last (b : D × D × D × D) : BoxFile fmt [b] (boxLine fmt b [])
  | cons {b : D × D × D × D} {bs : List (D × D × D × D)} {w t : Bytes} (hw : Blank w) (h0 : w ≠ []) (r : BoxFile fmt bs t) :
      BoxFile fmt (b :: bs) (boxLine fmt b w ++ t)

end

end Nx
