import Verif.Model.OptionsPrint

/-!
# Specification of the printed options
-/

namespace Nx

/-- The names of an option as they are shown: long name, comma, short name. -/
def label (o : OptData) : Bytes :=
  match o.name, o.shortName with
  | some n, some s => n ++ bytesOf ", " ++ s
  | some n, none => n
  | none, some s => s
  | none, none => []

/-- The full text of a value. -/
def fullText (fmtD : UInt64 → Bytes) : OVal → Bytes
  | .none => []
  | .b v => if v = 0 then bytesOf "false" else bytesOf "true"
  | .i v => intText v
  | .d v => fmtD v
  | .s v => bytesOf "'" ++ v.getD [] ++ bytesOf "'"

/-- A value belongs to the type. -/
def Typed : OType → OVal → Prop
  | .bool, .b _ => True
  | .int, .i _ => True
  | .double, .d _ => True
  | .string, .s v => ∃ t, v = some t ∧ CStr t
  | .help, v => v = .none
  | _, _ => False

/-- An option as the library makes them: at least one name, texts without zero bytes. -/
structure Showable (o : HOpt) : Prop where
  named : o.data.name ≠ none ∨ o.data.shortName ≠ none
  name_ok : ∀ n, o.data.name = some n → CStr n
  short_ok : ∀ n, o.data.shortName = some n → CStr n
  value_ok : Typed o.data.type o.data.value
  dflt_ok : Typed o.data.type o.data.dflt
  help_ok : ∃ t, o.help = some t

/-- The width of the first column: the longest of the texts. -/
def Widest (w : Nat) (texts : List Bytes) : Prop := (∀ t ∈ texts, t.length ≤ w) ∧ ((texts = [] ∧ w = 0) ∨ ∃ t ∈ texts, t.length = w)

/-- A text moved to the right end of a column. -/
def aligned (w : Nat) (t : Bytes) : Bytes := List.replicate (w - t.length) 32 ++ t

/-- Texts with separators between them. -/
def joined : List Bytes → Bytes
  | [] => []
  | [t] => t
  | t :: ts => t ++ bytesOf ", " ++ joined ts

/-- The line of an option in the list of values; texts above 1023 bytes are cut. -/
def valueText (fmtD : UInt64 → Bytes) (w : Nat) (o : HOpt) : Bytes :=
  aligned w (label o.data) ++ bytesOf ": " ++ (fullText fmtD o.data.value).take 1023 ++ bytesOf "\n"

/-- What a rest record holds: as many texts as counted. -/
def RestHolds (r : HRest) (name : Bytes) (texts : List Bytes) : Prop :=
  r.help = some name ∧ r.data.n = texts.length ∧ r.data.vals.getD [] = texts.map some

/-- The line of the rest in the list of values. -/
def restText (w : Nat) (name : Bytes) (texts : List Bytes) : Bytes :=
  aligned w name ++ bytesOf ": [" ++ joined (texts.map (fun t => bytesOf "'" ++ t ++ bytesOf "'")) ++ bytesOf "]\n"

/-- What is shown behind the help text: required options, options for help, and defaults. -/
def defaultText (fmtD : UInt64 → Bytes) (o : HOpt) : Bytes :=
  if o.data.isRequired then bytesOf "(REQUIRED)"
  else if o.data.type = .help then []
  else bytesOf "[" ++ (fullText fmtD o.data.dflt).take 1023 ++ bytesOf "]"

/-- The line of an option in the usage text. -/
def usageText (fmtD : UInt64 → Bytes) (w : Nat) (o : HOpt) : Bytes :=
  bytesOf "  " ++ aligned w (label o.data) ++ bytesOf " : " ++ o.help.getD [] ++ bytesOf " " ++ defaultText fmtD o ++ bytesOf "\n"

end Nx
