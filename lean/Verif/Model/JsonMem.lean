import Verif.Model.CsvMem
import Verif.Model.Json

/-!
# Model of the memory of JSON trees, `src/nx_json_tree.c`, `src/nx_json_parser.c`, `src/nx_json_log.c`

Simplifications. Only which blocks are allocated is recorded, not what they contain, except for the length of the text
that is read from a stream; the lexer is the list of tokens that it will give, after which it gives the end of the
file. Errors of the lexer end the program and are not modelled; see `Verif/Model/Json.lean` for the contents. The
field `last_child` is the last of the children, which is C24.
-/

namespace Nx

/-- `struct NXJSONNode`, `src/nx_json_tree.c:39-46`: the blocks of a node and of its text, and what `down` and `right`
point to. -/
inductive JMT
  | nil
  | node (self : Nat) (text : Option Nat) (down right : JMT)
deriving DecidableEq, Repr

/-- The chain with another one at its end, the effect of `nx_json_node_add_child`, `src/nx_json_tree.c:380-393`. -/
def JMT.append : JMT → JMT → JMT
  | .nil, t => t
  | .node s x d r, t => .node s x d (r.append t)

/-- The last node of a chain. -/
def JMT.last : JMT → Option Nat
  | .nil => none
  | .node s _ _ .nil => some s
  | .node _ _ _ (.node s x d r) => (JMT.node s x d r).last

/-- The accesses along a chain, `src/nx_json_tree.c:389-390`. -/
def jmWalk (σ : Mem) : JMT → Res Unit
  | .nil => .ok ()
  | .node s _ _ r => do
    memUse σ s
    jmWalk σ r

/-- An access to a node, if there is one. -/
def jmUse (σ : Mem) : Option Nat → Res Unit
  | none => .ok ()
  | some q => memUse σ q

/-- `nx_json_node_add_child`, `src/nx_json_tree.c:380-393`: the accesses, for a node with children `kids` that gets
the chain `n`. -/
def jmLink (σ : Mem) (parent : Nat) (kids n : JMT) : Res Unit := do
  memUse σ parent
  jmUse σ kids.last
  jmWalk σ n

/-- `nx_json_tree_free`, `src/nx_json_tree.c:197-205`. -/
def jmFree (σ : Mem) : JMT → Res Mem
  | .nil => .ok σ
  | .node s x d r => do
    memUse σ s
    let σ ← jmFree σ d
    memUse σ s
    let σ ← jmFree σ r
    memUse σ s
    let σ ← memFree σ x
    memFree σ (some s)

/-- A tree that is read as a whole, as by `nx_json_tree_fprint_recursive`, `src/nx_json_tree.c:309-371`. -/
def jmRead (σ : Mem) : JMT → Res Unit
  | .nil => .ok ()
  | .node s x d r => do
    memUse σ s
    jmUse σ x
    jmRead σ d
    jmRead σ r

/-- `nx_json_node_new_composite` and `nx_json_node_new_constant`, `src/nx_json_tree.c:126-148`. -/
def jmNewPlain (σ : Mem) : Mem × Nat := memAlloc σ

/-- `nx_json_node_new_variable`, `src/nx_json_tree.c:150-156`. -/
def jmNewText (σ : Mem) (text : MSrc) : Res (Mem × Nat × Option Nat) := do
  let a := memAlloc σ
  let d ← memStrdup a.1 text
  pure (d.1, a.2, d.2)

/-- `nx_json_object_add`, `src/nx_json_tree.c:404-414`: the new children, for a node with children `kids`. -/
def jmObjectAdd (σ : Mem) (obj : Nat) (kids : JMT) (name : MSrc) (s : Nat) (x : Option Nat) (d : JMT) :
    Res (Mem × JMT) := do
  memUse σ obj
  let n ← jmNewText σ name
  let c := JMT.node n.2.1 n.2.2 .nil (.node s x d .nil)
  jmLink n.1 obj kids c
  pure (n.1, kids.append c)

/-- Whether a token has a text, `src/nx_json_lexer.c:164-183` and `195-200`. -/
def jmHasText : JTT → Bool
  | .integer | .fpnum | .string => true
  | _ => false

/-- The type of the next token. -/
def jmHead : List JTT → JTT
  | [] => .eof
  | t :: _ => t

/-- The text of a token, `src/nx_json_lexer.c:60-64` and `74`. -/
def jmTokText (σ : Mem) (t : JTT) : Mem × Option Nat :=
  if jmHasText t then ((memAlloc σ).1, some (memAlloc σ).2) else (σ, none)

/-- `nx_json_parser_consume`, `src/nx_json_parser.c:40-43`, with `nx_json_token_fill` and
`nx_json_token_fill_string`, `src/nx_json_lexer.c:52-75`: the tokens from the next one on are `ts`. The parser is
`struct NXJSONParser`, `src/nx_json_parser.c:31-38`, with its token and the text of that. -/
def jmConsume (σ : Mem) (p : CMPar) (ts : List JTT) : Res (Mem × CMPar) := do
  memUse σ p.self
  memUse σ p.tok
  let σ ← memFree σ p.text
  let t := jmTokText σ (jmHead ts)
  pure (t.1, { p with text := t.2 })

/-- `nx_json_parser_new`, `src/nx_json_parser.c:45-59`. -/
def jmParserNew (σ : Mem) (ts : List JTT) : Res (Mem × CMPar) :=
  let a := memAlloc σ
  let b := memAlloc a.1
  jmConsume b.1 ⟨a.2, b.2, none⟩ ts

/-- `nx_json_parser_free`, `src/nx_json_parser.c:61-68`, with `nx_json_token_free_data`,
`src/nx_json_lexer.c:77-83`. -/
def jmParserFree (σ : Mem) (p : CMPar) : Res Mem := do
  memUse σ p.self
  memUse σ p.tok
  let σ ← memFree σ p.text
  let σ ← memFree σ (some p.tok)
  memFree σ (some p.self)

/-- What a function of the parser does to the children `kids` of the current node `cur`. -/
abbrev JMStep := Mem → CMPar → Nat → JMT → List JTT → Res (Mem × CMPar × JMT × List JTT)

/-- The node of `nx_json_parser_match`, `src/nx_json_parser.c:78-93`, for a token of type `t`. -/
def jmLeaf (σ : Mem) (p : CMPar) (cur : Nat) (kids : JMT) : JTT → Res (Mem × JMT)
  | .string | .integer | .fpnum => do
    let n ← jmNewText σ (MSrc.of p.text)
    jmLink n.1 cur kids (.node n.2.1 n.2.2 .nil .nil)
    pure (n.1, kids.append (.node n.2.1 n.2.2 .nil .nil))
  | .tru | .fls | .nul => do
    let n := jmNewPlain σ
    jmLink n.1 cur kids (.node n.2 none .nil .nil)
    pure (n.1, kids.append (.node n.2 none .nil .nil))
  | _ => .ok (σ, kids)

/-- `nx_json_parser_match`, `src/nx_json_parser.c:75-103`. -/
def jmMatch (t : JTT) : JMStep := fun σ p cur kids ts =>
  if jmHead ts = t then do
    let k ← jmLeaf σ p cur kids t
    let c ← jmConsume k.1 p ts.tail
    pure (c.1, c.2, k.2, ts.tail)
  else .fatal

/-- The loops of `nx_json_parser_parse_elements` and `nx_json_parser_parse_members`, `src/nx_json_parser.c:140-143`
and `180-183`; the first number bounds how often they run. -/
def jmLoop (step : JMStep) : Nat → JMStep
  | 0, _, _, _, _, _ => .ub
  | fuel + 1, σ, p, cur, kids, ts =>
    if jmHead ts = .comma then do
      let m ← jmMatch .comma σ p cur kids ts
      let v ← step m.1 m.2.1 cur m.2.2.1 m.2.2.2
      jmLoop step fuel v.1 v.2.1 cur v.2.2.1 v.2.2.2
    else .ok (σ, p, kids, ts)

/-- `nx_json_parser_parse_elements` and `nx_json_parser_parse_members`, `src/nx_json_parser.c:136-144` and `176-184`. -/
def jmSeq (step : JMStep) (fuel : Nat) : JMStep := fun σ p cur kids ts => do
  let v ← step σ p cur kids ts
  jmLoop step fuel v.1 v.2.1 cur v.2.2.1 v.2.2.2

/-- `nx_json_parser_parse_pair`, `src/nx_json_parser.c:169-174`. -/
def jmPair (value : JMStep) : JMStep := fun σ p cur kids ts => do
  let a ← jmMatch .string σ p cur kids ts
  let b ← jmMatch .colon a.1 a.2.1 cur a.2.2.1 a.2.2.2
  value b.1 b.2.1 cur b.2.2.1 b.2.2.2

/-- The rest of `nx_json_parser_parse_array` and `nx_json_parser_parse_object`, `src/nx_json_parser.c:156-167` and
`196-207`, for the node `n`: its children. -/
def jmBody (o c : JTT) (seq : JMStep) (σ : Mem) (p : CMPar) (n : Nat) (ts : List JTT) :
    Res (Mem × CMPar × JMT × List JTT) := do
  let m ← jmMatch o σ p n .nil ts
  if jmHead m.2.2.2 = c then jmMatch c m.1 m.2.1 n m.2.2.1 m.2.2.2
  else do
    let s ← seq m.1 m.2.1 n m.2.2.1 m.2.2.2
    jmMatch c s.1 s.2.1 n s.2.2.1 s.2.2.2

/-- `nx_json_parser_parse_array` and `nx_json_parser_parse_object`, `src/nx_json_parser.c:146-167` and `186-207`,
inside of another one. -/
def jmComposite (o c : JTT) (seq : JMStep) : JMStep := fun σ p cur kids ts => do
  let n := jmNewPlain σ
  jmLink n.1 cur kids (.node n.2 none .nil .nil)
  let b ← jmBody o c seq n.1 p n.2 ts
  pure (b.1, b.2.1, kids.append (.node n.2 none b.2.2.1 .nil), b.2.2.2)

/-- `nx_json_parser_parse_value`, `src/nx_json_parser.c:119-134`, with `nx_json_parser_parse_number`,
`src/nx_json_parser.c:108-117`; the number bounds the depth. -/
def jmValue : Nat → JMStep
  | 0, _, _, _, _, _ => .ub
  | fuel + 1, σ, p, cur, kids, ts =>
    match jmHead ts with
    | .string => jmMatch .string σ p cur kids ts
    | .integer => jmMatch .integer σ p cur kids ts
    | .fpnum => jmMatch .fpnum σ p cur kids ts
    | .tru => jmMatch .tru σ p cur kids ts
    | .fls => jmMatch .fls σ p cur kids ts
    | .nul => jmMatch .nul σ p cur kids ts
    | .lsbrac => jmComposite .lsbrac .rsbrac (jmSeq (jmValue fuel) fuel) σ p cur kids ts
    | .lcbrac => jmComposite .lcbrac .rcbrac (jmSeq (jmPair (jmValue fuel)) fuel) σ p cur kids ts
    | _ => .fatal

/-- `nx_json_parser_parse`, `src/nx_json_parser.c:221-227`, with `nx_json_parser_parse_json`,
`src/nx_json_parser.c:209-219`. -/
def jmParse (σ : Mem) (p : CMPar) (ts : List JTT) : Res (Mem × CMPar × JMT) :=
  let n := jmNewPlain σ
  match jmHead ts with
  | .lsbrac => do
    let b ← jmBody .lsbrac .rsbrac (jmSeq (jmValue ts.length) ts.length) n.1 p n.2 ts
    pure (b.1, b.2.1, .node n.2 none b.2.2.1 .nil)
  | .lcbrac => do
    let b ← jmBody .lcbrac .rcbrac (jmSeq (jmPair (jmValue ts.length)) ts.length) n.1 p n.2 ts
    pure (b.1, b.2.1, .node n.2 none b.2.2.1 .nil)
  | _ => .fatal

/-- `nx_json_tree_from_string`, `src/nx_json_tree.c:48-57`, with `nx_json_lexer_new` and `nx_json_lexer_free`,
`src/nx_json_lexer.c:108-121`. -/
def jmFromString (σ : Mem) (ts : List JTT) : Res (Mem × JMT) := do
  let jlex := memAlloc σ
  let lex := memAlloc jlex.1
  let p ← jmParserNew lex.1 ts
  let t ← jmParse p.1 p.2 ts
  memUse t.1 jlex.2
  let σ ← memFree t.1 (some lex.2)
  let σ ← memFree σ (some jlex.2)
  let σ ← jmParserFree σ t.2.1
  pure (σ, t.2.2)

/-- The loop of `nx_json_tree_from_stream`, `src/nx_json_tree.c:66-73`, for `n` more bytes, with the block of the text,
its size `cap` and the number `i` of bytes in it. -/
def jmReadText (σ : Mem) (text cap i : Nat) : Nat → Res (Mem × Nat × Nat × Nat)
  | 0 => .ok (σ, text, cap, i)
  | n + 1 => do
    memUse σ text
    if i < cap then
      if cap ≤ i + 1 + 2 then
        if cap * 2 < 2 ^ 31 then do
          let r ← memRealloc σ (some text)
          jmReadText r.1 r.2 (cap * 2) (i + 1) n
        else .ub
      else jmReadText σ text cap (i + 1) n
    else .ub

/-- `nx_json_tree_from_stream`, `src/nx_json_tree.c:59-80`, for `n` bytes with the tokens `ts`. -/
def jmFromStream (σ : Mem) (n : Nat) (ts : List JTT) : Res (Mem × JMT) := do
  let a := memAlloc σ
  let t ← jmReadText a.1 a.2 1024 0 n
  memUse t.1 t.2.1
  if t.2.2.2 < t.2.2.1 then do
    let r ← jmFromString t.1 ts
    let σ ← memFree r.1 (some t.2.1)
    pure (σ, r.2)
  else .ub

/-- The streams of the log, `nx_s_json_log`, `src/nx_json_log.c:32`: the block of the array and its elements. -/
abbrev JLog := Option (Nat × List JMT)

/-- The number of streams, `include/virg/nexus/nx_json_log.h:38`. -/
def jlogN : Nat := 32

/-- The array of `nx_json_log_get_stream`, `src/nx_json_log.c:36-40`. -/
def jlogArr (σ : Mem) : JLog → Mem × Nat × List JMT
  | none => ((memAlloc σ).1, (memAlloc σ).2, List.replicate jlogN .nil)
  | some a => (σ, a)

/-- `nx_json_log_get_stream`, `src/nx_json_log.c:34-49`: the log, and the root of the stream with its children. -/
def jlogGet (σ : Mem) (g : JLog) (id : Int) : Res (Mem × Nat × List JMT × Nat × JMT) := do
  let a := jlogArr σ g
  if id < 0 ∨ (jlogN : Int) ≤ id then .fatal
  else do
    memUse a.1 a.2.1
    let t ← readAt a.2.2 id.toNat
    match t with
    | .nil => do
      let n := jmNewPlain a.1
      let l ← writeAt a.2.2 id.toNat (.node n.2 none .nil .nil)
      pure (n.1, a.2.1, l, n.2, .nil)
    | .node s _ d _ => pure (a.1, a.2.1, a.2.2, s, d)

/-- The loop of `nx_json_log_free`, `src/nx_json_log.c:54-55`, over the array at `arr`. -/
def jlogFreeAll (σ : Mem) (arr : Nat) : List JMT → Res Mem
  | [] => .ok σ
  | t :: ts => do
    memUse σ arr
    let σ ← jmFree σ t
    jlogFreeAll σ arr ts

/-- `nx_json_log_free`, `src/nx_json_log.c:51-59`. -/
def jlogFree (σ : Mem) : JLog → Res (Mem × JLog)
  | none => .ok (σ, none)
  | some a => do
    let σ ← jlogFreeAll σ a.1 a.2
    let σ ← memFree σ (some a.1)
    pure (σ, none)

/-- `nx_json_log_clear_stream`, `src/nx_json_log.c:61-72`. -/
def jlogClear (σ : Mem) (g : JLog) (id : Int) : Res (Mem × JLog) :=
  if id < 0 ∨ (jlogN : Int) ≤ id then .fatal
  else match g with
    | none => .ok (σ, none)
    | some a => do
      memUse σ a.1
      let t ← readAt a.2 id.toNat
      let σ ← jmFree σ t
      let l ← writeAt a.2 id.toNat .nil
      pure (σ, some (a.1, l))

/-- The shape of a value: which nodes have a text. -/
inductive JSh
  | nil
  | node (text : Bool) (down right : JSh)
deriving DecidableEq, Repr

/-- The text of a new node, `src/nx_json_tree.c:126-156`. -/
def jmShText (σ : Mem) (text : Bool) : Mem × Option Nat :=
  if text then ((memAlloc σ).1, some (memAlloc σ).2) else (σ, none)

/-- The nodes of a value, as the functions of `src/nx_json_bundle.c` allocate them. Simplified: only the nodes and
their texts, not the strings that are freed again. -/
def jmBuild (σ : Mem) : JSh → Mem × JMT
  | .nil => (σ, .nil)
  | .node x d r =>
    let a := memAlloc σ
    let b := jmShText a.1 x
    let d := jmBuild b.1 d
    let r := jmBuild d.1 r
    (r.1, .node a.2 b.2 d.2 r.2)

/-- A value of a shape: its root, its text and what is below it. -/
def jmValueOf (σ : Mem) (x : Bool) (d : JSh) : Mem × Nat × Option Nat × JMT :=
  let a := memAlloc σ
  let b := jmShText a.1 x
  let d := jmBuild b.1 d
  (d.1, a.2, b.2, d.2)

/-- The children of the root of a stream are set. -/
def jlogSet (l : List JMT) (id : Int) (root : Nat) (kids : JMT) : Res (List JMT) :=
  writeAt l id.toNat (.node root none kids .nil)

/-- `NX_JLOG`, `include/virg/nexus/nx_json_log.h:48-50`, for a value of the given shape. -/
def jlogAdd (σ : Mem) (g : JLog) (id : Int) (x : Bool) (d : JSh) : Res (Mem × JLog) := do
  let s ← jlogGet σ g id
  let v := jmValueOf s.1 x d
  let k ← jmObjectAdd v.1 s.2.2.2.1 s.2.2.2.2 .ext v.2.1 v.2.2.1 v.2.2.2
  let l ← jlogSet s.2.2.1 id s.2.2.2.1 k.2
  pure (k.1, some (s.2.1, l))

/-- Node `k` of a chain gets another child, if there is such a node. -/
def jmAddAt (σ : Mem) (c : JMT) : Nat → JMT → Option (Res JMT)
  | _, .nil => none
  | 0, .node s x d r => some (do
    jmLink σ s d c
    pure (.node s x (d.append c) r))
  | k + 1, .node s x d r => match jmAddAt σ c k r with
    | none => none
    | some t => some (do
      let t ← t
      pure (.node s x d t))

/-- `NX_JLOG_ADD_TEMPLATE`, `include/virg/nexus/nx_json_log.h:51-59`, where `nx_json_object_get` finds node `k` of the
stream, or nothing. -/
def jlogAppend (σ : Mem) (g : JLog) (id : Int) (k : Nat) (x : Bool) (d : JSh) : Res (Mem × JLog) := do
  let s ← jlogGet σ g id
  jmWalk s.1 s.2.2.2.2
  let v := jmValueOf s.1 x d
  match jmAddAt v.1 (.node v.2.1 v.2.2.1 v.2.2.2 .nil) k s.2.2.2.2 with
  | some t => do
    let t ← t
    let l ← jlogSet s.2.2.1 id s.2.2.2.1 t
    pure (v.1, some (s.2.1, l))
  | none => do
    let a := jmNewPlain v.1
    jmLink a.1 a.2 .nil (.node v.2.1 v.2.2.1 v.2.2.2 .nil)
    let t ← jmObjectAdd a.1 s.2.2.2.1 s.2.2.2.2 .ext a.2 none (.node v.2.1 v.2.2.1 v.2.2.2 .nil)
    let l ← jlogSet s.2.2.1 id s.2.2.2.1 t.2
    pure (t.1, some (s.2.1, l))

/-- `NX_JLOG_PRINT`, `include/virg/nexus/nx_json_log.h:61`. -/
def jlogPrint (σ : Mem) (g : JLog) (id : Int) : Res (Mem × JLog) := do
  let s ← jlogGet σ g id
  jmRead s.1 (.node s.2.2.2.1 none s.2.2.2.2 .nil)
  pure (s.1, some (s.2.1, s.2.2.1))

/-- A call for the log. -/
inductive JLogOp
  | add (id : Int) (text : Bool) (down : JSh)
  | append (id : Int) (found : Nat) (text : Bool) (down : JSh)
  | print (id : Int)
  | clear (id : Int)
  | free
deriving DecidableEq, Repr

/-- One call. -/
def jlogStep (σ : Mem) (g : JLog) : JLogOp → Res (Mem × JLog)
  | .add id x d => jlogAdd σ g id x d
  | .append id k x d => jlogAppend σ g id k x d
  | .print id => jlogPrint σ g id
  | .clear id => jlogClear σ g id
  | .free => jlogFree σ g

/-- A program of calls. -/
def jlogRun (σ : Mem) (g : JLog) : List JLogOp → Res (Mem × JLog)
  | [] => .ok (σ, g)
  | o :: os => do
    let r ← jlogStep σ g o
    jlogRun r.1 r.2 os

end Nx
