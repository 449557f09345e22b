import Verif.Model.Gnuplot

/-! # What gnuplot makes of the bytes it gets -/

namespace Nx

/-- A part of a command: a word, or a text in double quotes. -/
inductive GTok
  | word (w : Bytes)
  | text (t : Bytes)
deriving DecidableEq, Repr

/-- Where the reader is: between or in words, in a text, or behind a backslash of a text. -/
inductive GMode
  | out
  | text
  | esc
deriving DecidableEq, Repr

/-- The reader: the commands so far, the command, the word and the text that are being read. -/
structure GRead where
  done : List (List GTok)
  cmd : List GTok
  word : Bytes
  text : Bytes
  mode : GMode
deriving DecidableEq, Repr

/-- The end of a word. -/
def GRead.endWord (s : GRead) : GRead := if s.word = [] then s else { s with cmd := s.cmd ++ [.word s.word], word := [] }

/-- The end of a command. -/
def GRead.endCmd (s : GRead) : GRead := if s.cmd = [] then s else { s with done := s.done ++ [s.cmd], cmd := [] }

/-- One byte. Commands end with a semicolon or a newline, words with a space; a text may not contain a newline. -/
def GRead.step (s : GRead) (b : Byte) : Option GRead :=
  match s.mode with
  | .out =>
    if b = 34 then some { s.endWord with mode := .text, text := [] }
    else if b = 59 ∨ b = 10 then some s.endWord.endCmd
    else if b = 32 then some s.endWord
    else some { s with word := s.word ++ [b] }
  | .text =>
    if b = 34 then some { s with cmd := s.cmd ++ [.text s.text], text := [], mode := .out }
    else if b = 92 then some { s with mode := .esc, text := s.text ++ [b] }
    else if b = 10 then none
    else some { s with text := s.text ++ [b] }
  | .esc => if b = 10 then none else some { s with mode := .text, text := s.text ++ [b] }

/-- The commands in a sequence of bytes. -/
def gpCommands (bs : Bytes) : Option (List (List GTok)) :=
  match bs.foldlM GRead.step ⟨[], [], [], [], .out⟩ with
  | some s => if s.mode = .out then some s.endWord.endCmd.done else none
  | none => none

/-- A text without quotes, backslashes and newlines. -/
def CleanText (t : Bytes) : Prop := ∀ b ∈ t, b ≠ 34 ∧ b ≠ 92 ∧ b ≠ 10

/-- A word: no spaces, quotes, semicolons or newlines. -/
def CleanWord (t : Bytes) : Prop := ∀ b ∈ t, b ≠ 34 ∧ b ≠ 59 ∧ b ≠ 10 ∧ b ≠ 32

/-- The lines of a text, each without its newline; what is behind the last newline is dropped. -/
def gpLines : Bytes → Bytes → List Bytes
  | _, [] => []
  | acc, b :: bs => if b = 10 then acc :: gpLines [] bs else gpLines (acc ++ [b]) bs

/-- The fields of a line: separated by any number of spaces. -/
def gpFields : Bytes → Bytes → List Bytes
  | acc, [] => if acc = [] then [] else [acc]
  | acc, b :: bs =>
    if b = 32 then (if acc = [] then gpFields [] bs else acc :: gpFields [] bs) else gpFields (acc ++ [b]) bs

/-- A block of data: the first line, the lines up to `EOD`, and the lines behind. -/
def gpBlock (bs : Bytes) : Option (Bytes × List Bytes × List Bytes) :=
  match gpLines [] bs with
  | [] => none
  | first :: l => if asc "EOD" ∈ l then some (first, l.takeWhile (· != asc "EOD"), (l.dropWhile (· != asc "EOD")).drop 1) else none

end Nx
