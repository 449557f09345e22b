import Verif.Model.DataFrameMem

/-!
# Model of the memory of CSV parsing, `src/nx_csv_parser.c`, `src/nx_csv_lexer.c`

Simplifications. Only which blocks are allocated is recorded, not what they contain; the lexer is the list of tokens
that it will give, a field with the type of its text. Errors of the lexer end the program and are not modelled; see
`Verif/Model/Csv.lean` for the contents.
-/

namespace Nx

/-- A token, `enum NXCSVTokenType`; after the last one the lexer gives the end of the file. -/
inductive CMTok
  | eor
  | comma
  | field (type : DCT)
deriving DecidableEq, Repr

/-- `struct NXCSVField`, `src/nx_csv_parser.c:56-59`. -/
structure CMField where
  self : Nat
  text : Option Nat
  type : DCT
deriving DecidableEq, Repr

/-- `struct NXCSVRecord`, `src/nx_csv_parser.c:103-107`. -/
structure CMRec where
  self : Nat
  arr : Option Nat
  cap : Nat
  fields : List CMField
deriving DecidableEq, Repr

/-- `struct NXCSVData`, `src/nx_csv_parser.c:141-147`. -/
structure CMData where
  self : Nat
  arr : Option Nat
  cap : Nat
  recs : List CMRec
  nCols : Nat
deriving DecidableEq, Repr

/-- `struct NXCSVParser`, `src/nx_csv_parser.c:261-265`, with the text of its token. -/
structure CMPar where
  self : Nat
  tok : Nat
  text : Option Nat
deriving DecidableEq, Repr

/-- The text of a token, `src/nx_csv_lexer.c:58-63` and `73`. -/
def cmTokText (σ : Mem) : List CMTok → Mem × Option Nat
  | .field _ :: _ => ((memAlloc σ).1, some (memAlloc σ).2)
  | _ => (σ, none)

/-- `nx_csv_parser_consume`, `src/nx_csv_parser.c:267-271`, with `nx_csv_token_fill`, `src/nx_csv_lexer.c:51-64`, and
`nx_csv_token_fill_qfield`, `src/nx_csv_lexer.c:66-74`: the tokens from the next one on are `ts`. -/
def cmConsume (σ : Mem) (p : CMPar) (ts : List CMTok) : Res (Mem × CMPar) := do
  memUse σ p.self
  memUse σ p.tok
  let σ ← memFree σ p.text
  let t := cmTokText σ ts
  pure (t.1, { p with text := t.2 })

/-- `nx_csv_parser_new`, `src/nx_csv_parser.c:273-287`. -/
def cmParserNew (σ : Mem) (ts : List CMTok) : Res (Mem × CMPar) :=
  let a := memAlloc σ
  let b := memAlloc a.1
  cmConsume b.1 ⟨a.2, b.2, none⟩ ts

/-- `nx_csv_parser_free`, `src/nx_csv_parser.c:289-296`, with `nx_csv_token_free_data`, `src/nx_csv_lexer.c:76-82`. -/
def cmParserFree (σ : Mem) (p : CMPar) : Res Mem := do
  memUse σ p.self
  memUse σ p.tok
  let σ ← memFree σ p.text
  let σ ← memFree σ (some p.tok)
  memFree σ (some p.self)

/-- `nx_csv_field_new`, `src/nx_csv_parser.c:61-76`, without a token. -/
def cmFieldNull (σ : Mem) : Mem × CMField := ((memAlloc σ).1, ⟨(memAlloc σ).2, none, .string⟩)

/-- `nx_csv_field_new`, `src/nx_csv_parser.c:61-76`, for the token of the parser. -/
def cmFieldNew (σ : Mem) (p : CMPar) (type : DCT) : Res (Mem × CMField) := do
  let a := memAlloc σ
  memUse a.1 p.tok
  let d ← memStrdup a.1 (MSrc.of p.text)
  pure (d.1, ⟨a.2, d.2, type⟩)

/-- The end of `nx_csv_record_add_field_from_token`, `src/nx_csv_parser.c:137-138`. -/
def cmAddField (σ : Mem) (r : CMRec) (f : CMField) : Res (Mem × CMRec) := do
  memUse σ r.self
  let e ← memEnsure σ r.arr r.cap (r.fields.length + 1)
  slotUse e.1 e.2.1 e.2.2 r.fields.length
  pure (e.1, { r with arr := e.2.1, cap := e.2.2, fields := r.fields ++ [f] })

/-- `nx_csv_record_add_field_from_token`, `src/nx_csv_parser.c:134-139`, without a token. -/
def cmAddNull (σ : Mem) (r : CMRec) : Res (Mem × CMRec) := cmAddField (cmFieldNull σ).1 r (cmFieldNull σ).2

/-- `nx_csv_record_add_field_from_token`, `src/nx_csv_parser.c:134-139`, for the token of the parser. -/
def cmAddTok (σ : Mem) (p : CMPar) (r : CMRec) (type : DCT) : Res (Mem × CMRec) := do
  let f ← cmFieldNew σ p type
  cmAddField f.1 r f.2

/-- The loop of `nx_csv_parser_parse_record`, `src/nx_csv_parser.c:320-329`, with `nx_csv_parser_match_comma`,
`src/nx_csv_parser.c:298-305`; the first of the tokens is the one of the parser. -/
def cmRecLoop (σ : Mem) (p : CMPar) (r : CMRec) : List CMTok → Res (Mem × CMPar × CMRec × List CMTok)
  | [] => .ok (σ, p, r, [])
  | .eor :: ts => .ok (σ, p, r, .eor :: ts)
  | .field _ :: _ => .fatal
  | .comma :: .field t :: ts => do
    let c ← cmConsume σ p (.field t :: ts)
    let a ← cmAddTok c.1 c.2 r t
    let c ← cmConsume a.1 c.2 ts
    cmRecLoop c.1 c.2 a.2 ts
  | .comma :: ts => do
    let c ← cmConsume σ p ts
    let a ← cmAddNull c.1 r
    cmRecLoop a.1 c.2 a.2 ts

/-- The first field of a record, `src/nx_csv_parser.c:311-318`. -/
def cmRecFirst (σ : Mem) (p : CMPar) (r : CMRec) : List CMTok → Res (Mem × CMPar × CMRec × List CMTok)
  | .eor :: _ => .fatal
  | .comma :: ts => do
    let a ← cmAddNull σ r
    pure (a.1, p, a.2, .comma :: ts)
  | .field t :: ts => do
    let a ← cmAddTok σ p r t
    let c ← cmConsume a.1 p ts
    pure (c.1, c.2, a.2, ts)
  | [] => .ub

/-- The end of a record, `src/nx_csv_parser.c:331-332`. -/
def cmRecEnd (σ : Mem) (p : CMPar) : List CMTok → Res (Mem × CMPar × List CMTok)
  | .eor :: ts => do
    let c ← cmConsume σ p ts
    pure (c.1, c.2, ts)
  | ts => .ok (σ, p, ts)

/-- `nx_csv_record_new`, `src/nx_csv_parser.c:112-120`, with `nx_csv_data_add_record`, `src/nx_csv_parser.c:170-174`;
the record is the last of `d` when it is complete, see `cmParseRecord`. -/
def cmRecNew (σ : Mem) (d : CMData) : Res (Mem × CMData × CMRec) := do
  let a := memAlloc σ
  memUse a.1 d.self
  let e ← memEnsure a.1 d.arr d.cap (d.recs.length + 1)
  slotUse e.1 e.2.1 e.2.2 d.recs.length
  pure (e.1, { d with arr := e.2.1, cap := e.2.2 }, ⟨a.2, none, 0, []⟩)

/-- `nx_csv_parser_parse_record`, `src/nx_csv_parser.c:307-335`. -/
def cmParseRecord (σ : Mem) (p : CMPar) (d : CMData) (ts : List CMTok) : Res (Mem × CMPar × CMData × List CMTok) := do
  let n ← cmRecNew σ d
  let f ← cmRecFirst n.1 p n.2.2 ts
  let l ← cmRecLoop f.1 f.2.1 f.2.2.1 f.2.2.2
  let e ← cmRecEnd l.1 l.2.1 l.2.2.2
  pure (e.1, e.2.1, { n.2.1 with recs := n.2.1.recs ++ [l.2.2.1] }, e.2.2)

/-- The check of the number of fields, `src/nx_csv_parser.c:346-350`, for the last record. -/
def cmCheckCols (d : CMData) : Res CMData :=
  match d.recs.getLast? with
  | none => .ub
  | some r =>
    if d.nCols = 0 then .ok { d with nCols := r.fields.length }
    else if r.fields.length ≠ d.nCols then .fatal
    else .ok d

/-- The loop of `nx_csv_parser_parse_csv`, `src/nx_csv_parser.c:344-351`; the first argument bounds the number of
records. -/
def cmParseLoop : Nat → Mem → CMPar → CMData → List CMTok → Res (Mem × CMPar × CMData)
  | _, σ, p, d, [] => .ok (σ, p, d)
  | 0, _, _, _, _ :: _ => .ub
  | fuel + 1, σ, p, d, t :: ts => do
    let r ← cmParseRecord σ p d (t :: ts)
    let d ← cmCheckCols r.2.2.1
    cmParseLoop fuel r.1 r.2.1 d r.2.2.2

/-- `nx_csv_parser_parse_csv`, `src/nx_csv_parser.c:337-354`, with `nx_csv_data_alloc`, `src/nx_csv_parser.c:149-158`. -/
def cmParseCsv (σ : Mem) (p : CMPar) (ts : List CMTok) : Res (Mem × CMPar × CMData) :=
  let a := memAlloc σ
  match ts with
  | [] => .fatal
  | t :: ts => cmParseLoop (ts.length + 1) a.1 p ⟨a.2, none, 0, [], 0⟩ (t :: ts)

/-- The access to field `c` of a record. -/
def cmFieldAt (σ : Mem) (r : CMRec) (c : Nat) : Res CMField := do
  memUse σ r.self
  slotUse σ r.arr r.cap c
  let f ← readAt r.fields c
  memUse σ f.self
  pure f

/-- The type of a column with one more field, `src/nx_csv_parser.c:206-212`; `none` is a type that is not set. -/
def cmTypeStep (t : Option DCT) (f : CMField) : Option DCT :=
  if f.text = none then t
  else match t with
    | none => some f.type
    | some t => some (csvLarger t f.type)

/-- One record in `nx_csv_data_get_column_types`, `src/nx_csv_parser.c:203-213`; `ctypes` is the array at `ct` and `set`
the one of the flags. -/
def cmTypesRow (σ : Mem) (ct set : Nat) (r : CMRec) : Nat → List (Option DCT) → Res (List (Option DCT))
  | _, [] => .ok []
  | c, t :: ts => do
    let f ← cmFieldAt σ r c
    memUse σ ct
    memUse σ set
    let rest ← cmTypesRow σ ct set r (c + 1) ts
    pure (cmTypeStep t f :: rest)

/-- The loop over the records, `src/nx_csv_parser.c:202-214`. -/
def cmTypesRows (σ : Mem) (d : CMData) (ct set : Nat) : Nat → List CMRec → List (Option DCT) → Res (List (Option DCT))
  | _, [], ts => .ok ts
  | i, r :: rs, ts => do
    slotUse σ d.arr d.cap i
    let ts ← cmTypesRow σ ct set r 0 ts
    cmTypesRows σ d ct set (i + 1) rs ts

/-- `nx_csv_data_get_column_types`, `src/nx_csv_parser.c:193-223`: the types and their array. -/
def cmColumnTypes (σ : Mem) (d : CMData) : Res (Mem × Nat × List DCT) := do
  let ct := memAlloc σ
  let set := memAlloc ct.1
  let ts ← cmTypesRows set.1 d ct.2 set.2 1 (d.recs.drop 1) (List.replicate d.nCols none)
  let σ ← memFree set.1 (some set.2)
  pure (σ, ct.2, ts.map (fun t => t.getD .string))

/-- The label of a column, `src/nx_csv_parser.c:251-252`. -/
def cmLabel : Option Nat → MSrc
  | none => .ext
  | some p => .ptr p

/-- The loop over the columns of `nx_csv_data_to_data_frame`, `src/nx_csv_parser.c:250-253`. -/
def cmLabels (ct : Nat) (r : CMRec) : Nat → Mem → DMFrame → List DCT → Res (Mem × DMFrame)
  | _, σ, df, [] => .ok (σ, df)
  | i, σ, df, t :: ts => do
    let f ← cmFieldAt σ r i
    memUse σ ct
    let a ← dmAddColumn σ df t (cmLabel f.text)
    cmLabels ct r (i + 1) a.1 a.2 ts

/-- `nx_csv_field_set_data_frame`, `src/nx_csv_parser.c:86-101`, for a column of type `t`. -/
def cmSetCell (σ : Mem) (df : DMFrame) (i c k : Nat) (text : Nat) : DCT → Res (Mem × DMFrame)
  | .string => dmSetString σ df i c (.ptr text)
  | .bool => do
    memUse σ text
    dmSetPlain σ df .bool i c
  | .double => do
    memUse σ text
    dmSetPlain σ df .double i c
  | .int => do
    memUse σ text
    dmSetPlain σ df .int i c
  | .factor => dmSetFactor σ df i c (.ptr text) k

/-- `nx_csv_field_set_data_frame`, `src/nx_csv_parser.c:86-101`. -/
def cmSetField (σ : Mem) (df : DMFrame) (i c : Nat) (f : CMField) : Res (Mem × DMFrame) :=
  match f.text with
  | none => dmSetNa σ df i c
  | some t => do
    let dc ← dmColAt σ df c
    memUse σ dc.self
    cmSetCell σ df i c 0 t dc.type

/-- The inner loop of `nx_csv_data_fill_data_frame`, `src/nx_csv_parser.c:232-235`. -/
def cmFillRow (r : CMRec) (i : Nat) : Nat → Nat → Mem → DMFrame → Res (Mem × DMFrame)
  | _, 0, σ, df => .ok (σ, df)
  | c, n + 1, σ, df => do
    let f ← cmFieldAt σ r c
    let a ← cmSetField σ df i c f
    cmFillRow r i (c + 1) n a.1 a.2

/-- The outer loop of `nx_csv_data_fill_data_frame`, `src/nx_csv_parser.c:229-236`. -/
def cmFill (d : CMData) : Nat → Mem → DMFrame → List CMRec → Res (Mem × DMFrame)
  | _, σ, df, [] => .ok (σ, df)
  | j, σ, df, r :: rs => do
    slotUse σ d.arr d.cap j
    let a ← dmAddRow σ df
    let b ← cmFillRow r df.nRows 0 d.nCols a.1 a.2
    cmFill d (j + 1) b.1 b.2 rs

/-- The middle of `nx_csv_data_to_data_frame`, `src/nx_csv_parser.c:245-256`, for the first record `r`. -/
def cmToFrameOf (σ : Mem) (d : CMData) (r : CMRec) : Res (Mem × DMFrame) := do
  let t ← cmColumnTypes σ d
  let a := dmAlloc t.1
  slotUse a.1 d.arr d.cap 0
  let b ← cmLabels t.2.1 r 0 a.1 a.2 t.2.2
  let σ ← memFree b.1 (some t.2.1)
  cmFill d 1 σ b.2 (d.recs.drop 1)

/-- `nx_csv_data_to_data_frame`, `src/nx_csv_parser.c:239-259`. -/
def cmToFrame (σ : Mem) (d : CMData) : Res (Mem × DMFrame) :=
  match d.recs with
  | [] => .fatal
  | r :: _ => if d.nCols = 0 then .fatal else cmToFrameOf σ d r

/-- `nx_csv_field_free`, `src/nx_csv_parser.c:78-84`. -/
def cmFieldFree (σ : Mem) (f : CMField) : Res Mem := do
  memUse σ f.self
  let σ ← memFree σ f.text
  memFree σ (some f.self)

/-- The loop of `nx_csv_record_free`, `src/nx_csv_parser.c:125-126`. -/
def cmFreeFields (σ : Mem) (arr : Option Nat) (cap : Nat) : Nat → List CMField → Res Mem
  | _, [] => .ok σ
  | i, f :: fs => do
    slotUse σ arr cap i
    let σ ← cmFieldFree σ f
    cmFreeFields σ arr cap (i + 1) fs

/-- `nx_csv_record_free`, `src/nx_csv_parser.c:122-132`. -/
def cmRecFree (σ : Mem) (r : CMRec) : Res Mem := do
  memUse σ r.self
  let σ ← cmFreeFields σ r.arr r.cap 0 r.fields
  let σ ← memFree σ r.arr
  memFree σ (some r.self)

/-- The loop of `nx_csv_data_free`, `src/nx_csv_parser.c:163-164`. -/
def cmFreeRecs (σ : Mem) (arr : Option Nat) (cap : Nat) : Nat → List CMRec → Res Mem
  | _, [] => .ok σ
  | i, r :: rs => do
    slotUse σ arr cap i
    let σ ← cmRecFree σ r
    cmFreeRecs σ arr cap (i + 1) rs

/-- `nx_csv_data_free`, `src/nx_csv_parser.c:160-168`. -/
def cmDataFree (σ : Mem) (d : CMData) : Res Mem := do
  memUse σ d.self
  let σ ← cmFreeRecs σ d.arr d.cap 0 d.recs
  let σ ← memFree σ d.arr
  memFree σ (some d.self)

/-- `nx_csv_parser_parse`, `src/nx_csv_parser.c:356-365`. -/
def cmParse (σ : Mem) (p : CMPar) (ts : List CMTok) : Res (Mem × CMPar × DMFrame) := do
  let d ← cmParseCsv σ p ts
  let f ← cmToFrame d.1 d.2.2
  let σ ← cmDataFree f.1 d.2.2
  pure (σ, d.2.1, f.2)

/-- The growing of the text, `src/nx_data_frame.c:628-631`: `n` times. -/
def cmReadText (σ : Mem) (text : Nat) : Nat → Res (Mem × Nat)
  | 0 => .ok (σ, text)
  | n + 1 => do
    let r ← memRealloc σ (some text)
    cmReadText r.1 r.2 n

/-- `nx_data_frame_load_csv_stream`, `src/nx_data_frame.c:614-650`, for `strings_as_factors` not set: the text is
reallocated `n` times; `nx_csv_lexer_new` and `nx_csv_lexer_free`, `src/nx_csv_lexer.c:107-120`, have two blocks. -/
def cmLoad (σ : Mem) (n : Nat) (ts : List CMTok) : Res (Mem × DMFrame) := do
  let a := memAlloc σ
  let t ← cmReadText a.1 a.2 n
  let clex := memAlloc t.1
  let lex := memAlloc clex.1
  let p ← cmParserNew lex.1 ts
  let f ← cmParse p.1 p.2 ts
  let σ ← cmParserFree f.1 f.2.1
  let σ ← memFree σ (some lex.2)
  let σ ← memFree σ (some clex.2)
  let σ ← memFree σ (some t.2)
  pure (σ, f.2.2)

end Nx
