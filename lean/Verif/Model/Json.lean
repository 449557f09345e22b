import Verif.Model.Lexer
import Verif.Model.Str

/-!
# Model of the JSON lexer, parser and printer

`src/nx_json_lexer.c`, `src/nx_json_parser.c`, `src/nx_json_tree.c`.

Simplifications. A tree is a value (`JTree`, the `down`/`right` chain of the C
nodes) instead of a linked structure in memory; the functions of the parser return
the chain of nodes they append to `jp->current_node` (that appending with
`nx_json_node_add_child` really produces this chain is C24, proved on a model with
pointers in `Verif/Model/JsonHeap.lean`). Recursion is bounded by a fuel parameter;
running out of it is the outcome `ub`, which C23 excludes for the fuel used by
`jsonFromString`. Token texts are freed by the lexer and not modelled as memory.
-/

namespace Nx

/-- `enum NXJSONTokenType`, `include/virg/nexus/nx_json_lexer.h:33-48`
(`NX_JTT_INVALID` is overwritten before it is ever inspected). -/
inductive JTT
  | eof | lsbrac | rsbrac | lcbrac | rcbrac | comma | colon | tru | fls | nul | integer | fpnum | string
deriving DecidableEq, Repr

/-- `struct NXJSONToken`, `include/virg/nexus/nx_json_lexer.h`. -/
structure JTok where
  type : JTT
  text : Option Bytes
deriving DecidableEq, Repr

/-- `nx_json_lexer_is_whitespace`, `src/nx_json_lexer.c:123-129`. -/
def isJsonWs (c : Int) : Bool := c = 10 || c = 13 || c = 9 || c = 32

/-- The bytes a token points to, `src/nx_json_lexer.c:60-64`. -/
def lexemeBytes (text : Bytes) (x : Lexeme) : Res Bytes :=
  if 0 ≤ x.start ∧ 0 ≤ x.len ∧ x.start + x.len ≤ text.length then
    .ok ((text.drop x.start.toNat).take x.len.toNat)
  else .ub

/-- `nx_json_lexer_TRUE/FALSE/NULL`, `src/nx_json_lexer.c:137-162`. -/
def jsonKeyword (l : Lexer) (rest : Bytes) (type : JTT) : Res (Lexer × JTok) := do
  let l ← lexConsume l
  let r ← lexMatch l rest
  if r.1 then pure (r.2, ⟨type, none⟩) else .fatal

/-- `nx_json_lexer_NUMBER`, `src/nx_json_lexer.c:164-176`. -/
def jsonNumber (l : Lexer) : Res (Lexer × JTok) := do
  let r ← lexNumber l
  let w ← lexemeBytes l.text r.2.1
  pure (r.1, ⟨if r.2.2 then .integer else .fpnum, some w⟩)

/-- `nx_json_lexer_STRING`, `src/nx_json_lexer.c:178-183`. -/
def jsonString (l : Lexer) : Res (Lexer × JTok) := do
  let r ← lexQuotedString l
  let w ← lexemeBytes l.text r.2
  let s ← xstrFromReadable w.length w
  pure (r.1, ⟨.string, some s⟩)

/-- Single-character tokens, `src/nx_json_lexer.c:195-200`. -/
def jsonPunct (l : Lexer) (type : JTT) : Res (Lexer × JTok) := do
  let l ← lexConsume l
  pure (l, ⟨type, none⟩)

/-- The switch of `nx_json_lexer_next_token`, `src/nx_json_lexer.c:194-212`. -/
def jsonDispatch (l : Lexer) : Res (Lexer × JTok) :=
  if l.c = 91 then jsonPunct l .lsbrac
  else if l.c = 93 then jsonPunct l .rsbrac
  else if l.c = 123 then jsonPunct l .lcbrac
  else if l.c = 125 then jsonPunct l .rcbrac
  else if l.c = 44 then jsonPunct l .comma
  else if l.c = 58 then jsonPunct l .colon
  else if l.c = 116 then jsonKeyword l [114, 117, 101] .tru
  else if l.c = 102 then jsonKeyword l [97, 108, 115, 101] .fls
  else if l.c = 110 then jsonKeyword l [117, 108, 108] .nul
  else if l.c = 34 then jsonString l
  else if l.c = 45 ∨ isDigitC l.c then jsonNumber l
  else .fatal

/-- `nx_json_lexer_next_token`, `src/nx_json_lexer.c:185-216`. White space is
skipped by the first iteration of the loop, every other iteration returns. -/
def jsonNextToken (l : Lexer) : Res (Lexer × JTok) := do
  let l ← skipWhile isJsonWs rfl l
  if l.c = -1 then pure (l, ⟨.eof, none⟩) else jsonDispatch l

/-- Node types, `include/virg/nexus/nx_json_tree.h:36-43`. -/
inductive JNT
  | object | array | string | integer | fpnumber | tru | fls | nul
deriving DecidableEq, Repr

/-- The bit of a node type, `include/virg/nexus/nx_json_tree.h:36-43`. -/
def JNT.bit : JNT → Nat
  | .object => 1 | .array => 2 | .string => 4 | .integer => 8
  | .fpnumber => 16 | .tru => 32 | .fls => 64 | .nul => 128

/-- `struct NXJSONNode *`, `src/nx_json_tree.c:39-46`: NULL or a node with its first
child and its next sibling (`last_child` is redundant, see C24). -/
inductive JTree
  | nil
  | node (type : JNT) (text : Option Bytes) (down right : JTree)
deriving DecidableEq, Repr

/-- A node without its `right` link. -/
structure JNode where
  type : JNT
  text : Option Bytes
  down : JTree
deriving DecidableEq, Repr

/-- A node in front of its later siblings. -/
def JNode.cons (n : JNode) (right : JTree) : JTree := .node n.type n.text n.down right

/-- `nx_json_node_new_string/integer/fpnumber`, `src/nx_json_tree.c:149-180`; the
text is that of a C string, duplicated. -/
def jsonNewVariable (type : JNT) (text : Option Bytes) : Res JNode :=
  match text with
  | some s => .ok ⟨type, some (s.takeWhile (· ≠ 0)), .nil⟩
  | none => .ub

/-- `nx_json_node_new_true`, `src/nx_json_tree.c:182-185`. -/
def jsonNewTrue : JNode := ⟨.tru, none, .nil⟩
/-- `nx_json_node_new_false`, `src/nx_json_tree.c:187-190`: the type is
`NX_JNT_TRUE` in the code. -/
def jsonNewFalse : JNode := ⟨.tru, none, .nil⟩
/-- `nx_json_node_new_null`, `src/nx_json_tree.c:192-195`: the type is
`NX_JNT_TRUE` in the code. -/
def jsonNewNull : JNode := ⟨.tru, none, .nil⟩

/-- `struct NXJSONParser`, `src/nx_json_parser.c:31-38`, without the node pointers. -/
structure JParser where
  lex : Lexer
  tok : JTok
deriving DecidableEq, Repr

/-- `nx_json_parser_consume`, `src/nx_json_parser.c:40-43`. -/
def jpConsume (l : Lexer) : Res JParser := do
  let r ← jsonNextToken l
  pure ⟨r.1, r.2⟩

/-- `nx_json_parser_match` for a token that creates no node,
`src/nx_json_parser.c:75-101`. -/
def jpMatch (s : JParser) (type : JTT) : Res JParser :=
  if s.tok.type = type then jpConsume s.lex else .fatal

/-- The node created by `nx_json_parser_match`, `src/nx_json_parser.c:78-91`, for
the token types that create one. -/
def jpNewNode (type : JTT) (text : Option Bytes) : Res JNode :=
  match type with
  | .string => jsonNewVariable .string text
  | .integer => jsonNewVariable .integer text
  | .fpnum => jsonNewVariable .fpnumber text
  | .tru => .ok jsonNewTrue
  | .fls => .ok jsonNewFalse
  | .nul => .ok jsonNewNull
  | _ => .ub

/-- `nx_json_parser_match` for a token that creates a node,
`src/nx_json_parser.c:75-101`: the node and the next state. -/
def jpMatchNode (s : JParser) (type : JTT) : Res (JNode × JParser) :=
  if s.tok.type = type then do
    let n ← jpNewNode type s.tok.text
    let s ← jpConsume s.lex
    pure (n, s)
  else .fatal

mutual

/-- `nx_json_parser_parse_value`, `src/nx_json_parser.c:117-132` (with
`parse_number`, `106-115`). -/
def jpValue : Nat → JParser → Res (JNode × JParser)
  | 0, _ => .ub
  | fuel + 1, s =>
    match s.tok.type with
    | .string => jpMatchNode s .string
    | .integer => jpMatchNode s .integer
    | .fpnum => jpMatchNode s .fpnum
    | .tru => jpMatchNode s .tru
    | .fls => jpMatchNode s .fls
    | .nul => jpMatchNode s .nul
    | .lsbrac => jpArray fuel s
    | .lcbrac => jpObject fuel s
    | _ => .fatal

/-- `nx_json_parser_parse_elements`, `src/nx_json_parser.c:134-142`. -/
def jpElements : Nat → JParser → Res (JTree × JParser)
  | 0, _ => .ub
  | fuel + 1, s => do
    let r ← jpValue fuel s
    let q ← jpElementsLoop fuel r.2
    pure (r.1.cons q.1, q.2)

/-- The loop of `nx_json_parser_parse_elements`, `src/nx_json_parser.c:138-141`. -/
def jpElementsLoop : Nat → JParser → Res (JTree × JParser)
  | 0, _ => .ub
  | fuel + 1, s =>
    if s.tok.type = .comma then do
      let s ← jpMatch s .comma
      let r ← jpValue fuel s
      let q ← jpElementsLoop fuel r.2
      pure (r.1.cons q.1, q.2)
    else pure (.nil, s)

/-- `nx_json_parser_parse_array`, `src/nx_json_parser.c:144-167`. -/
def jpArray : Nat → JParser → Res (JNode × JParser)
  | 0, _ => .ub
  | fuel + 1, s => do
    let s ← jpMatch s .lsbrac
    if s.tok.type = .rsbrac then do
      let s ← jpMatch s .rsbrac
      pure (⟨.array, none, .nil⟩, s)
    else do
      let r ← jpElements fuel s
      let s ← jpMatch r.2 .rsbrac
      pure (⟨.array, none, r.1⟩, s)

/-- `nx_json_parser_parse_pair`, `src/nx_json_parser.c:169-174`. -/
def jpPair : Nat → JParser → Res (JNode × JNode × JParser)
  | 0, _ => .ub
  | fuel + 1, s => do
    let k ← jpMatchNode s .string
    let s ← jpMatch k.2 .colon
    let r ← jpValue fuel s
    pure (k.1, r.1, r.2)

/-- `nx_json_parser_parse_members`, `src/nx_json_parser.c:176-184`. -/
def jpMembers : Nat → JParser → Res (JTree × JParser)
  | 0, _ => .ub
  | fuel + 1, s => do
    let r ← jpPair fuel s
    let q ← jpMembersLoop fuel r.2.2
    pure (r.1.cons (r.2.1.cons q.1), q.2)

/-- The loop of `nx_json_parser_parse_members`, `src/nx_json_parser.c:180-183`. -/
def jpMembersLoop : Nat → JParser → Res (JTree × JParser)
  | 0, _ => .ub
  | fuel + 1, s =>
    if s.tok.type = .comma then do
      let s ← jpMatch s .comma
      let r ← jpPair fuel s
      let q ← jpMembersLoop fuel r.2.2
      pure (r.1.cons (r.2.1.cons q.1), q.2)
    else pure (.nil, s)

/-- `nx_json_parser_parse_object`, `src/nx_json_parser.c:186-209`. -/
def jpObject : Nat → JParser → Res (JNode × JParser)
  | 0, _ => .ub
  | fuel + 1, s => do
    let s ← jpMatch s .lcbrac
    if s.tok.type = .rcbrac then do
      let s ← jpMatch s .rcbrac
      pure (⟨.object, none, .nil⟩, s)
    else do
      let r ← jpMembers fuel s
      let s ← jpMatch r.2 .rcbrac
      pure (⟨.object, none, r.1⟩, s)

end

/-- `nx_json_parser_parse`, `src/nx_json_parser.c:211-229`: the root node. -/
def jpParse (fuel : Nat) (s : JParser) : Res JTree :=
  if s.tok.type = .lsbrac then do
    let r ← jpArray fuel s
    pure (r.1.cons .nil)
  else if s.tok.type = .lcbrac then do
    let r ← jpObject fuel s
    pure (r.1.cons .nil)
  else .fatal

/-- `nx_json_tree_from_string`, `src/nx_json_tree.c:48-57`, on the C string `text`. -/
def jsonFromString (text : Bytes) : Res JTree := do
  let l ← lexNew text
  let s ← jpConsume l
  jpParse (3 * text.length + 4) s

/-- `make_tab`, `src/nx_json_tree.c:306-310`. -/
def makeTab (width : Int) : Bytes := List.replicate width.toNat 32

/-- `pp_str`, `src/nx_json_tree.c:315`. -/
def ppStr (level : Int) : Bytes := if level > 0 then [10] else [32]

/-- `tab_width_children`, `src/nx_json_tree.c:316`. -/
def childTab (level tab : Int) : Int := if level > 0 then tab + 4 else 0

/-- What is printed between two elements of a container,
`src/nx_json_tree.c:337-340`, `360-363`: `n` is the next element. -/
def jsonSep (level tab : Int) : JTree → Bytes
  | .nil => []
  | .node .. => [44] ++ ppStr level ++ makeTab (childTab level tab)

mutual

/-- `nx_json_tree_fprint_recursive`, `src/nx_json_tree.c:312-372`, on a node that is
not NULL: the bytes written (the `right` link of the node is not used). -/
def jsonPrintNode (level tab : Int) (type : JNT) (text : Option Bytes) (down : JTree) : Res Bytes :=
  match type with
  | .nul => .ok [110, 117, 108, 108]
  | .tru => .ok [116, 114, 117, 101]
  | .fls => .ok [102, 97, 108, 115, 101]
  | .string => .ok (fputsReadable text)
  | .integer => match text with
    | some s => .ok s
    | none => .ub
  | .fpnumber => match text with
    | some s => .ok s
    | none => .ub
  | .array => do
    let body ← jsonPrintElems level tab down
    pure ([91] ++ ppStr level ++ makeTab (childTab level tab) ++ body ++ ppStr level
      ++ makeTab (childTab level tab - 4) ++ [93])
  | .object => do
    let body ← jsonPrintMembers level tab down
    pure ([123] ++ ppStr level ++ makeTab (childTab level tab) ++ body ++ ppStr level
      ++ makeTab (childTab level tab - 4) ++ [125])
termination_by (sizeOf down, 1)

/-- The loop over the elements of an array, `src/nx_json_tree.c:333-342`. -/
def jsonPrintElems (level tab : Int) : JTree → Res Bytes
  | .nil => .ok []
  | .node type text down right => do
    let a ← jsonPrintNode (level - 1) (tab + 4) type text down
    let b ← jsonPrintElems level tab right
    pure (a ++ jsonSep level tab right ++ b)
termination_by t => (sizeOf t, 0)

/-- The loop over the members of an object, `src/nx_json_tree.c:351-364`; the
assertions are aborts. -/
def jsonPrintMembers (level tab : Int) : JTree → Res Bytes
  | .nil => .ok []
  | .node keyType key _ value =>
    if keyType = .string then
      match value with
      | .nil => .fatal
      | .node type text down right => do
        let a ← jsonPrintNode (level - 1) (tab + 4) type text down
        let b ← jsonPrintMembers level tab right
        pure (fputsReadable key ++ [32, 58, 32] ++ a ++ jsonSep level tab right ++ b)
    else .fatal
termination_by t => (sizeOf t, 0)

end

/-- `nx_json_tree_fprint_recursive`, `src/nx_json_tree.c:312-372`. -/
def jsonPrintRec (level tab : Int) : JTree → Res Bytes
  | .nil => .ok []
  | .node type text down _ => jsonPrintNode level tab type text down

/-- `nx_json_tree_fprint`, `src/nx_json_tree.c:374-378`. -/
def jsonPrint (level : Int) (t : JTree) : Res Bytes := do
  let w ← jsonPrintRec level 0 t
  pure (w ++ [10])

end Nx
