import Verif.Model.Json
import Verif.Model.CNum

/-!
# Model of the CSV lexer and parser

`src/nx_csv_lexer.c`, `src/nx_csv_parser.c`, up to the records; the data frame made
of them is in `Verif/Model/DataFrame.lean`.

Simplifications. Records and fields are lists instead of growing arrays; token texts
are not modelled as memory. `strtod` is the parameter `dbl`, which tells for a text
whether `strtod` uses all of it without reporting a range error. The loops of the
parser are bounded by a fuel parameter; running out of it is the outcome `ub`, which
C27 excludes for the fuel used by `csvParse`.
-/

namespace Nx

/-- `struct NXCSVToken`, `include/virg/nexus/nx_csv_lexer.h` (`NX_CTT_INVALID` is
overwritten before it is ever inspected). -/
inductive CTok
  | eof | eor | comma
  | field (text : Bytes)
  | qfield (text : Bytes)
deriving DecidableEq, Repr

/-- The `do … while` loop of `nx_csv_lexer_FIELD`, `src/nx_csv_lexer.c:135-141`. -/
def csvFieldLoop (l : Lexer) : Res Lexer :=
  if l.c = 34 then .fatal
  else if _hc : l.c = -1 then .ok l   -- a `do` body at end of input changes nothing
  else
    match _h : lexConsume l with
    | .ok l' => if l'.c ≠ -1 ∧ l'.c ≠ 10 ∧ l'.c ≠ 44 then csvFieldLoop l' else .ok l'
    | .fatal => .fatal
    | .ub => .ub
termination_by (l.text.length + 1 - l.pos).toNat
decreasing_by exact lexConsume_pos _h _hc

/-- `nx_csv_lexer_FIELD`, `src/nx_csv_lexer.c:130-147`. -/
def csvField (l : Lexer) : Res (Lexer × CTok) := do
  let start := l.pos
  let l ← csvFieldLoop l
  let w ← lexemeBytes l.text { start := start, len := l.pos - start }
  pure (l, .field w)

/-- The body of the loop of `nx_csv_lexer_QFIELD`, `src/nx_csv_lexer.c:156-163`; the
flag tells that the closing quote was found. -/
def csvQStep (l : Lexer) : Res (Lexer × Bool) :=
  if l.c = 34 then do
    let l ← lexConsume l
    if l.c ≠ 34 then pure (l, true)
    else do
      let l ← lexConsume l
      pure (l, false)
  else do
    let l ← lexConsume l
    pure (l, false)

theorem csvQStep_pos {l : Lexer} {r : Lexer × Bool} (h : csvQStep l = .ok r) (hc : l.c ≠ -1) :
    (r.1.text.length + 1 - r.1.pos).toNat < (l.text.length + 1 - l.pos).toNat := by
  unfold csvQStep at h
  split at h
  · rw [Res.bind_eq_ok] at h
    obtain ⟨l1, h1, h2⟩ := h
    have := lexConsume_pos h1 hc
    split at h2
    · cases h2; exact this
    · rename_i he
      rw [Res.bind_eq_ok] at h2
      obtain ⟨l2, h3, h4⟩ := h2
      have he : l1.c ≠ -1 := by omega
      have := lexConsume_pos h3 he
      cases h4
      simp only
      omega
  · rw [Res.bind_eq_ok] at h
    obtain ⟨l1, h1, h2⟩ := h
    cases h2
    exact lexConsume_pos h1 hc

/-- The `do … while` loop of `nx_csv_lexer_QFIELD`, `src/nx_csv_lexer.c:155-164`. -/
def csvQLoop (l : Lexer) : Res (Lexer × Bool) :=
  if _hc : l.c = -1 then .ok (l, false)   -- a `do` body at end of input changes nothing
  else
    match _h : csvQStep l with
    | .ok r => if r.2 then .ok r else if r.1.c ≠ -1 then csvQLoop r.1 else .ok r
    | .fatal => .fatal
    | .ub => .ub
termination_by (l.text.length + 1 - l.pos).toNat
decreasing_by exact csvQStep_pos _h _hc

/-- `nx_csv_lexer_QFIELD`, `src/nx_csv_lexer.c:149-173`. -/
def csvQField (l : Lexer) : Res (Lexer × CTok) := do
  let l ← lexConsume l
  let start := l.pos
  let r ← csvQLoop l
  if !r.2 then .fatal
  else do
    let w ← lexemeBytes r.1.text { start := start, len := r.1.pos - 1 - start }
    let s ← xstrFromDoubleQuoted w.length w
    pure (r.1, .qfield s)

/-- `nx_csv_lexer_next_token`, `src/nx_csv_lexer.c:175-189`; the loop returns in its
first iteration. -/
def csvNextToken (l : Lexer) : Res (Lexer × CTok) :=
  if l.c = -1 then .ok (l, .eof)
  else if l.c = 44 then do
    let l ← lexConsume l
    pure (l, .comma)
  else if l.c = 10 then do
    let l ← lexConsume l
    pure (l, .eor)
  else if l.c = 34 then csvQField l
  else csvField l

/-- `enum NXDataColumnType`, `include/virg/nexus/nx_data_frame.h:38-44`. -/
inductive DCT
  | string | int | double | bool | factor
deriving DecidableEq, Repr

/-- `nx_csv_field_type_from_token_text`, `src/nx_csv_parser.c:38-54`. -/
def csvFieldType (dbl : Bytes → Bool) (text : Bytes) : DCT :=
  if text = [116, 114, 117, 101] ∨ text = [102, 97, 108, 115, 101] then .bool
  else
    let r := strtol 0 text
    if r.2 = [] ∧ InI32 r.1 then .int
    else if dbl text then .double
    else .string

/-- `struct NXCSVField`, `src/nx_csv_parser.c:56-59`. -/
structure CField where
  text : Option Bytes
  type : DCT
deriving DecidableEq, Repr

/-- `nx_csv_field_new(NULL)`, `src/nx_csv_parser.c:64-66`. -/
def csvFieldNull : CField := ⟨none, .string⟩

/-- `nx_csv_field_new`, `src/nx_csv_parser.c:67-73`, for a token; tokens without text
would make `strcmp` read through NULL. -/
def csvFieldNew (dbl : Bytes → Bool) : CTok → Res CField
  | .field t => .ok ⟨some t, csvFieldType dbl t⟩
  | .qfield t => .ok ⟨some t, .string⟩
  | _ => .ub

/-- `struct NXCSVParser`, `src/nx_csv_parser.c:261-265`. -/
structure CsvP where
  lex : Lexer
  tok : CTok
deriving DecidableEq, Repr

/-- `nx_csv_parser_consume`, `src/nx_csv_parser.c:267-271`. -/
def csvConsume (p : CsvP) : Res CsvP := do
  let r ← csvNextToken p.lex
  pure ⟨r.1, r.2⟩

/-- `nx_csv_lexer_new` and `nx_csv_parser_new`, `src/nx_csv_lexer.c:107-112`,
`src/nx_csv_parser.c:273-287`. -/
def csvParserNew (text : Bytes) : Res CsvP := do
  let l ← lexNew text
  csvConsume ⟨l, .eof⟩

/-- `nx_csv_parser_match_comma`, `src/nx_csv_parser.c:298-305`. -/
def csvMatchComma (p : CsvP) : Res CsvP :=
  if p.tok = .comma then csvConsume p else .fatal

/-- The loop of `nx_csv_parser_parse_record`, `src/nx_csv_parser.c:320-329`; `acc` are
the fields of the record so far. -/
def csvRecLoop (dbl : Bytes → Bool) : Nat → CsvP → List CField → Res (CsvP × List CField)
  | 0, _, _ => .ub
  | fuel + 1, p, acc =>
    if p.tok = .eor ∨ p.tok = .eof then .ok (p, acc)
    else do
      let p ← csvMatchComma p
      if p.tok = .comma ∨ p.tok = .eor ∨ p.tok = .eof then
        csvRecLoop dbl fuel p (acc ++ [csvFieldNull])
      else do
        let f ← csvFieldNew dbl p.tok
        let p ← csvConsume p
        csvRecLoop dbl fuel p (acc ++ [f])

/-- The first field of a record, `src/nx_csv_parser.c:311-318`. -/
def csvRecFirst (dbl : Bytes → Bool) (p : CsvP) : Res (CsvP × List CField) :=
  if p.tok = .eor then .fatal
  else if p.tok = .comma then .ok (p, [csvFieldNull])
  else do
    let f ← csvFieldNew dbl p.tok
    let p ← csvConsume p
    pure (p, [f])

/-- `nx_csv_parser_parse_record`, `src/nx_csv_parser.c:307-335`. -/
def csvParseRecord (dbl : Bytes → Bool) (fuel : Nat) (p : CsvP) : Res (CsvP × List CField) := do
  let r ← csvRecFirst dbl p
  let r ← csvRecLoop dbl fuel r.1 r.2
  if r.1.tok = .eor then do
    let p ← csvConsume r.1
    pure (p, r.2)
  else pure r

/-- The loop of `nx_csv_parser_parse_csv`, `src/nx_csv_parser.c:344-351`; `recs` are the
records so far, `n` is `n_columns`. -/
def csvParseLoop (dbl : Bytes → Bool) (rf : Nat) :
    Nat → CsvP → List (List CField) → Nat → Res (List (List CField) × Nat)
  | 0, _, _, _ => .ub
  | fuel + 1, p, recs, n =>
    if p.tok = .eof then .ok (recs, n)
    else do
      let r ← csvParseRecord dbl rf p
      if n = 0 then csvParseLoop dbl rf fuel r.1 (recs ++ [r.2]) r.2.length
      else if r.2.length ≠ n then .fatal
      else csvParseLoop dbl rf fuel r.1 (recs ++ [r.2]) n

/-- `nx_csv_parser_parse_csv`, `src/nx_csv_parser.c:337-354`: records and `n_columns`. -/
def csvParse (dbl : Bytes → Bool) (text : Bytes) : Res (List (List CField) × Nat) := do
  let p ← csvParserNew text
  if p.tok = .eof then .fatal
  else csvParseLoop dbl (text.length + 1) (text.length + 1) p [] 0

/-- `nx_csv_column_pick_larger_type`, `src/nx_csv_parser.c:177-191`. -/
def csvLarger (t0 t1 : DCT) : DCT :=
  if t0 = .string ∨ t1 = .string then .string
  else if t0 = .bool ∧ t1 = .bool then .bool
  else if t0 = .bool ∨ t1 = .bool then .string
  else if t0 = .double ∨ t1 = .double then .double
  else .int

/-- The columns of one record, `src/nx_csv_parser.c:204-213`, from column `c` on;
`none` in `ct` is a column whose type is not set. -/
def csvTypesRow (record : List CField) (nc : Nat) (c : Nat) (ct : List (Option DCT)) :
    Res (List (Option DCT)) :=
  if c < nc then do
    let f ← readAt record c
    if f.text ≠ none then do
      let old ← readAt ct c
      let ct ← writeAt ct c (some (match old with | none => f.type | some t => csvLarger t f.type))
      csvTypesRow record nc (c + 1) ct
    else csvTypesRow record nc (c + 1) ct
  else .ok ct
termination_by nc - c

/-- The loop over the records, `src/nx_csv_parser.c:202-214`. -/
def csvTypesRows (nc : Nat) : List (List CField) → List (Option DCT) → Res (List (Option DCT))
  | [], ct => .ok ct
  | r :: rs, ct => do
    let ct ← csvTypesRow r nc 0 ct
    csvTypesRows nc rs ct

/-- `nx_csv_data_get_column_types`, `src/nx_csv_parser.c:193-223`; the first record holds
the labels. -/
def csvColumnTypes (records : List (List CField)) (nc : Nat) : Res (List DCT) := do
  let ct ← csvTypesRows nc records.tail (List.replicate nc none)
  pure (ct.map (fun t => match t with | none => .string | some t => t))

end Nx
