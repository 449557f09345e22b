import Verif.Spec.Lexer
import Verif.Spec.Str
import Verif.Model.Json

/-!
# Specification of JSON texts

Abstract JSON values, the texts that spell them, and the node tree that represents a
value. Nothing here refers to the lexer or parser functions.
-/

namespace Nx

mutual

/-- JSON values. Numbers are kept as their text; `int` has neither fraction nor
exponent. -/
inductive JVal
  | str (s : Bytes)
  | int (w : Bytes)
  | fp (w : Bytes)
  | tru
  | fls
  | nul
  | arr (e : JElems)
  | obj (m : JMembers)

/-- Elements of an array. -/
inductive JElems
  | nil
  | cons (v : JVal) (e : JElems)

/-- Members of an object. -/
inductive JMembers
  | nil
  | cons (k : Bytes) (v : JVal) (m : JMembers)

end

/-- White space. -/
def Ws (a : Bytes) : Prop := ∀ b ∈ a, b = 10 ∨ b = 13 ∨ b = 9 ∨ b = 32

/-- `w` is a quoted spelling of the string `s`. -/
def StrText (s w : Bytes) : Prop := ∃ b, w = 34 :: b ++ [34] ∧ QBody b ∧ Escaped b s

/-- Numbers without fraction and exponent. -/
def IntText (w : Bytes) : Prop := ∃ sign int, w = sign ++ int ∧ JParts sign int [] []

/-- Numbers with fraction or exponent. -/
def FpText (w : Bytes) : Prop :=
  ∃ sign int frac exp, w = sign ++ int ++ frac ++ exp ∧ JParts sign int frac exp ∧ ¬ (frac = [] ∧ exp = [])

mutual

/-- `w` spells the value, possibly after white space. -/
def ValText : JVal → Bytes → Prop
  | .str s, w => ∃ a x, w = a ++ x ∧ Ws a ∧ StrText s x
  | .int x, w => ∃ a, w = a ++ x ∧ Ws a ∧ IntText x
  | .fp x, w => ∃ a, w = a ++ x ∧ Ws a ∧ FpText x
  | .tru, w => ∃ a, w = a ++ [116, 114, 117, 101] ∧ Ws a
  | .fls, w => ∃ a, w = a ++ [102, 97, 108, 115, 101] ∧ Ws a
  | .nul, w => ∃ a, w = a ++ [110, 117, 108, 108] ∧ Ws a
  | .arr e, w => ∃ a x b, w = a ++ [91] ++ x ++ b ++ [93] ∧ Ws a ∧ Ws b ∧ ElemsText e x
  | .obj m, w => ∃ a x b, w = a ++ [123] ++ x ++ b ++ [125] ∧ Ws a ∧ Ws b ∧ MembersText m x

/-- `w` spells the elements, separated by commas. -/
def ElemsText : JElems → Bytes → Prop
  | .nil, w => w = []
  | .cons v e, w => ∃ x y, w = x ++ y ∧ ValText v x ∧ MoreElemsText e y

/-- `w` spells further elements, each with a comma in front. -/
def MoreElemsText : JElems → Bytes → Prop
  | .nil, w => w = []
  | .cons v e, w => ∃ a x y, w = a ++ [44] ++ x ++ y ∧ Ws a ∧ ValText v x ∧ MoreElemsText e y

/-- `w` spells the members, separated by commas. -/
def MembersText : JMembers → Bytes → Prop
  | .nil, w => w = []
  | .cons k v m, w => ∃ a q b x y, w = a ++ q ++ b ++ [58] ++ x ++ y ∧ Ws a ∧ StrText k q ∧ Ws b ∧
      ValText v x ∧ MoreMembersText m y

/-- `w` spells further members, each with a comma in front. -/
def MoreMembersText : JMembers → Bytes → Prop
  | .nil, w => w = []
  | .cons k v m, w => ∃ c a q b x y, w = c ++ [44] ++ a ++ q ++ b ++ [58] ++ x ++ y ∧ Ws c ∧ Ws a ∧
      StrText k q ∧ Ws b ∧ ValText v x ∧ MoreMembersText m y

end

/-- Single-character tokens. -/
def punctTable : List (Byte × JTT) :=
  [(91, .lsbrac), (93, .rsbrac), (123, .lcbrac), (125, .rcbrac), (44, .comma), (58, .colon)]

/-- Keyword tokens. -/
def keywordTable : List (Bytes × JTT) :=
  [([116, 114, 117, 101], .tru), ([102, 97, 108, 115, 101], .fls), ([110, 117, 108, 108], .nul)]

/-- The text `z` starts with the token `tok` and goes on with `y`. -/
inductive TokRaw : Bytes → JTok → Bytes → Prop
  | punct {c ty y} : (c, ty) ∈ punctTable → TokRaw (c :: y) ⟨ty, none⟩ y
  | keyword {k ty y} : (k, ty) ∈ keywordTable → TokRaw (k ++ y) ⟨ty, none⟩ y
  | str {b s y} : QBody b → Escaped b s → TokRaw (34 :: b ++ 34 :: y) ⟨.string, some s⟩ y
  | int {sign int y} : JParts sign int [] [] → NumStop [] [] y →
      TokRaw (sign ++ int ++ y) ⟨.integer, some (sign ++ int)⟩ y
  | fp {sign int frac exp y} : JParts sign int frac exp → NumStop frac exp y →
      ¬ (frac = [] ∧ exp = []) →
      TokRaw (sign ++ int ++ frac ++ exp ++ y) ⟨.fpnum, some (sign ++ int ++ frac ++ exp)⟩ y

/-- The next token of the text `w` is `tok`, after it comes `y`. -/
def TokAt (w : Bytes) (tok : JTok) (y : Bytes) : Prop :=
  (Ws w ∧ tok = ⟨.eof, none⟩ ∧ y = []) ∨ ∃ a z, w = a ++ z ∧ Ws a ∧ TokRaw z tok y

/-- The first token of the text can be read. -/
def LexOk (y : Bytes) : Prop := ∃ tok z, TokAt y tok z

mutual

/-- The node that represents a value. -/
def nodeOf : JVal → JNode
  | .str s => ⟨.string, some s, .nil⟩
  | .int w => ⟨.integer, some w, .nil⟩
  | .fp w => ⟨.fpnumber, some w, .nil⟩
  | .tru => ⟨.tru, none, .nil⟩
  | .fls => ⟨.fls, none, .nil⟩
  | .nul => ⟨.nul, none, .nil⟩
  | .arr e => ⟨.array, none, elemsOf e⟩
  | .obj m => ⟨.object, none, membersOf m⟩

/-- The chain of nodes for the elements of an array. -/
def elemsOf : JElems → JTree
  | .nil => .nil
  | .cons v e => .node (nodeOf v).type (nodeOf v).text (nodeOf v).down (elemsOf e)

/-- The chain of nodes for the members of an object: keys and values alternate. -/
def membersOf : JMembers → JTree
  | .nil => .nil
  | .cons k v m => .node .string (some k) .nil
      (.node (nodeOf v).type (nodeOf v).text (nodeOf v).down (membersOf m))

end

/-- The tree whose root represents the value. -/
def treeOf (v : JVal) : JTree := .node (nodeOf v).type (nodeOf v).text (nodeOf v).down .nil

/-- Arrays and objects. -/
def JVal.IsContainer : JVal → Prop
  | .arr _ => True
  | .obj _ => True
  | _ => False

mutual

/-- The value with every `false` and `null` replaced by `true`. -/
def allTrue : JVal → JVal
  | .fls => .tru
  | .nul => .tru
  | .arr e => .arr (allTrueElems e)
  | .obj m => .obj (allTrueMembers m)
  | v => v

/-- `allTrue` for elements. -/
def allTrueElems : JElems → JElems
  | .nil => .nil
  | .cons v e => .cons (allTrue v) (allTrueElems e)

/-- `allTrue` for members. -/
def allTrueMembers : JMembers → JMembers
  | .nil => .nil
  | .cons k v m => .cons k (allTrue v) (allTrueMembers m)

end

mutual

/-- Neither `false` nor `null` occurs in the value. -/
def NoFalseNull : JVal → Prop
  | .fls => False
  | .nul => False
  | .arr e => NoFalseNullElems e
  | .obj m => NoFalseNullMembers m
  | _ => True

/-- `NoFalseNull` for elements. -/
def NoFalseNullElems : JElems → Prop
  | .nil => True
  | .cons v e => NoFalseNull v ∧ NoFalseNullElems e

/-- `NoFalseNull` for members. -/
def NoFalseNullMembers : JMembers → Prop
  | .nil => True
  | .cons _ v m => NoFalseNull v ∧ NoFalseNullMembers m

end

/-- Strings that can be passed through a C string and the lexer: no byte 0, no byte
255 (the value of `EOF`). -/
def LexStr (s : Bytes) : Prop := ∀ b ∈ s, b ≠ 0 ∧ b ≠ 255

instance (s : Bytes) : Decidable (LexStr s) := by unfold LexStr; infer_instance

mutual

/-- Values whose strings have no byte 0 or 255 and whose numbers are JSON numbers. -/
def Printable : JVal → Prop
  | .str s => LexStr s
  | .int w => IntText w
  | .fp w => FpText w
  | .arr e => PrintableElems e
  | .obj m => PrintableMembers m
  | _ => True

/-- `Printable` for elements. -/
def PrintableElems : JElems → Prop
  | .nil => True
  | .cons v e => Printable v ∧ PrintableElems e

/-- `Printable` for members. -/
def PrintableMembers : JMembers → Prop
  | .nil => True
  | .cons k v m => LexStr k ∧ Printable v ∧ PrintableMembers m

end

end Nx
