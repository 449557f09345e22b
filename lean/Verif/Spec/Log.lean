import Verif.Model.Log
import Verif.Spec.Gnuplot

/-! # What a reader makes of the messages -/

namespace Nx

/-- A message that was read. -/
structure LogEntry where
  letter : Byte
  tag : Bytes
  fn : Bytes
  line : Int
  text : Bytes
deriving DecidableEq, Repr

/-- What is before and behind the first `b`. -/
def cutFirst (b : Byte) : Bytes → Option (Bytes × Bytes)
  | [] => none
  | x :: l => if x = b then some ([], l) else (cutFirst b l).map (fun p => (x :: p.1, p.2))

/-- What is before and behind the last `b`. -/
def cutLast (b : Byte) : Bytes → Option (Bytes × Bytes)
  | [] => none
  | x :: l =>
    match cutLast b l with
    | some p => some (x :: p.1, p.2)
    | none => if x = b then some ([], l) else none

/-- The place in the program: a name and a number. -/
def logPlace (l : Bytes) : Option (Bytes × Int) :=
  match cutLast 58 l with
  | some p =>
    match atoi p.2 with
    | .ok v => some (p.1, v)
    | _ => none
  | none => none

/-- A line that is a message: `[letter][tag][name:number] text`. -/
def logEntry : Bytes → Option LogEntry
  | 91 :: k :: 93 :: 91 :: l =>
    match cutFirst 93 l with
    | some (tag, 91 :: l) =>
      match cutFirst 93 l with
      | some (place, 32 :: text) => (logPlace place).map (fun p => ⟨k, tag, p.1, p.2, text⟩)
      | _ => none
    | _ => none
  | _ => none

/-- What a terminal shows: without the sequences from `ESC` to `m`. -/
def stripAnsi : Bool → Bytes → Bytes
  | _, [] => []
  | true, b :: l => stripAnsi (b != 109) l
  | false, b :: l => if b = 27 then stripAnsi true l else b :: stripAnsi false l

/-- The entries in what a program has written. -/
def logRead (out : Bytes) : List (Option LogEntry) := (gpLines [] (stripAnsi false out)).map logEntry

/-- The verbosity that holds for a call: the last one that was set before, or that of the beginning. -/
def verbBefore (calls : List LogCall) : Int :=
  (calls.reverse.findSome? (fun c => match c with | .verbosity v => some v | _ => none)).getD 1

/-- The function for fatal errors that holds for a call. -/
def fatalBefore (calls : List LogCall) : Option Nat :=
  (calls.reverse.findSome? (fun c => match c with | .fatalFunc f => some f | _ => none)).getD none

/-- The letter of a level: information, log, warning, error. -/
def levelLetter (level : Int) : Byte := if level = 0 then 73 else if level = 1 then 76 else if level = 2 then 87 else 69

/-- The entries that must be there: those of the calls whose level is not below the verbosity, in order; `text i` is the text of call `i`. -/
def wantedEntries (calls : List LogCall) (text : Nat → Bytes) : List LogEntry :=
  (List.range calls.length).filterMap (fun (i : Nat) =>
    match (calls[i]? : Option LogCall) with
    | some (.print level fn line tag _ _) =>
      if verbBefore (calls.take i) ≤ level then some ⟨levelLetter level, tag, fn, line, text i⟩ else none
    | _ => none)

/-- A text that fits in one line of a terminal. -/
def OneLine (t : Bytes) : Prop := (10 : Byte) ∉ t ∧ (27 : Byte) ∉ t

/-- A text that fits between brackets. -/
def InBrackets (t : Bytes) : Prop := OneLine t ∧ (93 : Byte) ∉ t

/-- Calls that print proper messages: call `i` has the text `text i`, and none is fatal. -/
def ProperCalls (fmtF : Rat → Bytes) (calls : List LogCall) (text : Nat → Bytes) : Prop :=
  ∀ (i : Nat) (c : LogCall), calls[i]? = some c →
    match c with
    | .print level fn line tag msg args => 0 ≤ level ∧ level ≤ 3 ∧ InBrackets fn ∧ InBrackets tag ∧ InI32 line ∧
        cFormat fmtF msg args = .ok (text i) ∧ OneLine (text i)
    | .fatal .. => False
    | _ => True

end Nx
