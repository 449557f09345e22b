import Verif.Lemmas.Csv
import Verif.Lemmas.CNum

/-!
# C26–C29: CSV texts

C26 records are recovered from written text; C27 ragged tables are rejected; C28 the
type of a column is the join of the types of its cells; C29 integer cells.
-/

namespace Nx

theorem lexVisible_self {T : Bytes} (h : ∀ b ∈ T, b ≠ 0 ∧ b ≠ 255) : lexVisible T = T := by
  unfold lexVisible
  induction T with
  | nil => rfl
  | cons b T ih =>
    have hb := h b (by simp)
    rw [List.takeWhile_cons, if_pos (by simp [hb.1, hb.2]), ih (fun x hx => h x (by simp [hx]))]

theorem lexVisible_length (T : Bytes) : (lexVisible T).length ≤ T.length :=
  (List.takeWhile_sublist _).length_le

theorem nColumns_rect {α : Type} {rows : List (List α)} {n : Nat} (hne : rows ≠ []) (h : Rect rows n) :
    nColumns 0 rows = n := by
  cases rows with
  | nil => exact absurd rfl hne
  | cons r rs => rw [nColumns_cons, if_pos rfl]; exact h r (by simp)

theorem csvParse_table (dbl : Bytes → Bool) {T rows} (h : TableText rows (lexVisible T)) :
    (Rect rows (nColumns 0 rows) →
      csvParse dbl T = .ok (rows.map (List.map (Cell.field dbl)), nColumns 0 rows)) ∧
    (¬ Rect rows (nColumns 0 rows) → csvParse dbl T = .fatal) := by
  unfold csvParse
  rcases csvParserNew_at T with ⟨p, k, g⟩ | ⟨_, g⟩
  · rw [k]
    simp only [Res.ok_bind]
    have g0 := g
    obtain ⟨r, pre, h1, h2⟩ := g
    rw [if_neg (fun e => h.first.2 (h1.eof_iff.1 e))]
    have hl := h.lengths
    have hv := lexVisible_length T
    have := csvParseLoop_table dbl h p (T.length + 1) (T.length + 1) [] 0
      (fun r hr => by have := hl.1 r hr; omega) (by omega) g0
    simpa using this
  · exact absurd h.first.1 g

/-! ## C26 -/

/-- C26: the cells of a text that spells a rectangular table — unquoted, quoted and
missing ones — are recovered, with the number of rows and columns. The text must not
contain a byte 255 (see `c26_byte_255`) or zero. -/
theorem c26_table_partial (dbl : Bytes → Bool) (rows : List (List Cell)) (n : Nat) (txt : Bytes)
    (h : TableText rows txt) (hR : Rect rows n) (hz : ∀ b ∈ txt, b ≠ 0 ∧ b ≠ 255) :
    csvParse dbl txt = .ok (rows.map (List.map (Cell.field dbl)), n) := by
  have h' : TableText rows (lexVisible txt) := by rw [lexVisible_self hz]; exact h
  have hn := nColumns_rect h.ne_nil hR
  have := (csvParse_table dbl h').1 (by rw [hn]; exact hR)
  rw [hn] at this
  exact this

/-- A row of quoted fields, as a program writes it with `nx_fputs_double_quoted` and
commas. -/
def quotedRow : List Bytes → Bytes
  | [] => []
  | [s] => fputsDoubleQuoted (some s)
  | s :: ss => fputsDoubleQuoted (some s) ++ 44 :: quotedRow ss

/-- Rows of quoted fields, each followed by a newline. -/
def quotedTable : List (List Bytes) → Bytes
  | [] => []
  | r :: rs => quotedRow r ++ 10 :: quotedTable rs

theorem quotedRow_text : ∀ {ss : List Bytes}, ss ≠ [] → RowText (ss.map .quoted) (quotedRow ss)
  | [], h => absurd rfl h
  | [s], _ => .one (.quoted (doubled_dquotedBody s))
  | s :: s' :: ss, _ => .cons (.quoted (doubled_dquotedBody s)) (quotedRow_text (ss := s' :: ss) (by simp))

theorem quotedTable_text : ∀ {rows : List (List Bytes)}, rows ≠ [] → (∀ r ∈ rows, r ≠ []) →
    TableText (rows.map (List.map .quoted)) (quotedTable rows)
  | [], h, _ => absurd rfl h
  | [r], _, hr => by
    have h1 := quotedRow_text (hr r (by simp))
    refine .lastNl h1 ?_
    intro e
    cases r with
    | nil => cases e
    | cons => simp at e
  | r :: r' :: rs, _, hr => by
    have h1 := quotedRow_text (hr r (by simp))
    refine .cons h1 ?_ (quotedTable_text (rows := r' :: rs) (by simp) (fun x hx => hr x (by simp [hx])))
    intro e
    cases r with
    | nil => cases e
    | cons => simp at e

theorem mem_dquotedBody {b : Byte} : ∀ {s : Bytes}, b ∈ dquotedBody s → b ∈ s
  | [], h => h
  | c :: s, h => by
    unfold dquotedBody dquotedChar at h
    rw [List.mem_append] at h
    rcases h with h | h
    · split at h
      · rename_i hc; simp at h; subst hc; simp [h]
      · simp at h; simp [h]
    · exact List.mem_cons_of_mem _ (mem_dquotedBody h)

theorem mem_fputsDoubleQuoted {b : Byte} {s : Bytes} (h : b ∈ fputsDoubleQuoted (some s)) :
    b = 34 ∨ b ∈ s := by
  simp only [fputsDoubleQuoted, List.mem_append, List.mem_cons, List.not_mem_nil, or_false] at h
  rcases h with (h | h) | h
  · exact Or.inl h
  · exact Or.inr (mem_dquotedBody h)
  · exact Or.inl h

theorem quotedRow_bytes : ∀ {ss : List Bytes} {b : Byte}, b ∈ quotedRow ss →
    b = 34 ∨ b = 44 ∨ ∃ s ∈ ss, b ∈ s
  | [], b, h => by cases h
  | [s], b, h => by
    rcases mem_fputsDoubleQuoted h with h | h
    · exact Or.inl h
    · exact Or.inr (Or.inr ⟨s, by simp, h⟩)
  | s :: s' :: ss, b, h => by
    simp only [quotedRow, List.mem_append, List.mem_cons] at h
    rcases h with h | h | h
    · rcases mem_fputsDoubleQuoted h with h | h
      · exact Or.inl h
      · exact Or.inr (Or.inr ⟨s, by simp, h⟩)
    · exact Or.inr (Or.inl h)
    · rcases quotedRow_bytes (ss := s' :: ss) h with h | h | ⟨x, hx, hb⟩
      · exact Or.inl h
      · exact Or.inr (Or.inl h)
      · exact Or.inr (Or.inr ⟨x, List.mem_cons_of_mem _ hx, hb⟩)

theorem quotedTable_bytes : ∀ {rows : List (List Bytes)} {b : Byte}, b ∈ quotedTable rows →
    b = 34 ∨ b = 44 ∨ b = 10 ∨ ∃ r ∈ rows, ∃ s ∈ r, b ∈ s
  | [], b, h => by cases h
  | r :: rs, b, h => by
    simp only [quotedTable, List.mem_append, List.mem_cons] at h
    rcases h with h | h | h
    · rcases quotedRow_bytes h with h | h | ⟨s, hs, hb⟩
      · exact Or.inl h
      · exact Or.inr (Or.inl h)
      · exact Or.inr (Or.inr (Or.inr ⟨r, by simp, s, hs, hb⟩))
    · exact Or.inr (Or.inr (Or.inl h))
    · rcases quotedTable_bytes h with h | h | h | ⟨r, hr, s, hs, hb⟩
      · exact Or.inl h
      · exact Or.inr (Or.inl h)
      · exact Or.inr (Or.inr (Or.inl h))
      · exact Or.inr (Or.inr (Or.inr ⟨r, List.mem_cons_of_mem _ hr, s, hs, hb⟩))

/-- C26: rows of strings written with `nx_fputs_double_quoted`, separated by commas
and newlines, are recovered byte for byte. Not covered: strings with a byte 255. -/
theorem c26_quoted_round_trip_partial (dbl : Bytes → Bool) (rows : List (List Bytes)) (n : Nat)
    (hne : rows ≠ []) (hn : 0 < n) (hR : Rect rows n)
    (hz : ∀ r ∈ rows, ∀ s ∈ r, ∀ b ∈ s, b ≠ 0 ∧ b ≠ 255) :
    csvParse dbl (quotedTable rows) = .ok (rows.map (List.map (fun s => ⟨some s, .string⟩)), n) := by
  have hr0 : ∀ r ∈ rows, r ≠ [] := by
    intro r hr e
    have := hR r hr
    rw [e] at this
    simp at this
    omega
  have := c26_table_partial dbl (rows.map (List.map .quoted)) n _ (quotedTable_text hne hr0)
    (by
      intro r hr
      rw [List.mem_map] at hr
      obtain ⟨x, hx, rfl⟩ := hr
      simpa using hR x hx)
    (by
      intro b hb
      rcases quotedTable_bytes hb with h | h | h | ⟨r, hr, s, hs, hb⟩
      · subst h; decide
      · subst h; decide
      · subst h; decide
      · exact hz r hr s hs b hb)
  rw [this]
  simp [List.map_map, Function.comp_def, Cell.field]

example : (quotedTable [[bytesOf "a", bytesOf "x\"y,\n"], [bytesOf "", bytesOf "1"]]) =
    bytesOf "\"a\",\"x\"\"y,\n\"\n\"\",\"1\"\n" := by decide +kernel

/-- A table with unquoted, quoted and missing cells meets the hypotheses. -/
example : csvParse (fun _ => false) (bytesOf "a,\"b\"\n,12") =
    .ok ([[⟨some (bytesOf "a"), .string⟩, ⟨some (bytesOf "b"), .string⟩],
      [⟨none, .string⟩, ⟨some (bytesOf "12"), .int⟩]], 2) := by
  refine c26_table_partial _ [[.plain (bytesOf "a"), .quoted (bytesOf "b")], [.missing, .plain (bytesOf "12")]] 2 _ ?_ ?_ ?_
  · have p : ∀ w : Bytes, w ≠ [] → (∀ b ∈ w, b ≠ 34 ∧ b ≠ 44 ∧ b ≠ 10) → CellText (.plain w) w :=
      fun w h1 h2 => .plain h1 h2
    exact .cons (t := bytesOf "a,\"b\"")
      (.cons (t := bytesOf "a") (p _ (by decide) (by decide))
        (.one (t := 34 :: (bytesOf "b" ++ [34])) (.quoted (.plain (by decide) .nil)))) (by decide)
      (.last (t := bytesOf ",12") (.cons (t := []) .missing (.one (p _ (by decide) (by decide)))) (by decide))
  · unfold Rect; decide
  · decide

/-- C26 fails for a field holding the byte 255, which the lexer takes for the end of
the text. -/
theorem c26_byte_255 (dbl : Bytes → Bool) : csvParse dbl (quotedTable [[[97, 255, 98]]]) = .fatal := by
  have : csvParserNew (quotedTable [[[97, 255, 98]]]) = .fatal := by decide +kernel
  unfold csvParse
  rw [this]
  rfl

/-! ## C27 -/

/-- C27: whatever the text, the parser returns normally or aborts with an error. -/
theorem c27_total (dbl : Bytes → Bool) (T : Bytes) : csvParse dbl T ≠ .ub := by
  unfold csvParse
  rcases csvParserNew_at T with ⟨p, k, g⟩ | ⟨k, _⟩
  · rw [k]
    simp only [Res.ok_bind]
    split
    · simp
    · have hv := lexVisible_length T
      rcases csvParseLoop_any dbl (T.length + 1) (T.length + 1) p _ [] 0 g (by omega) (by omega) with
        ⟨_, _, _, k2⟩ | k2 <;> rw [k2] <;> simp
  · rw [k]; simp

/-- C27: if parsing succeeds, the text spells a table whose rows all have the same
positive number of cells, and the records are the cells of that table. -/
theorem c27_sound (dbl : Bytes → Bool) (T : Bytes) (recs : List (List CField)) (n : Nat)
    (h : csvParse dbl T = .ok (recs, n)) :
    ∃ rows, TableText rows (lexVisible T) ∧ Rect rows n ∧ 0 < n ∧
      recs = rows.map (List.map (Cell.field dbl)) ∧ (∀ r ∈ recs, r.length = n) := by
  have h0 := h
  unfold csvParse at h
  rcases csvParserNew_at T with ⟨p, k, g⟩ | ⟨k, _⟩
  · rw [k] at h
    simp only [Res.ok_bind] at h
    split at h
    · cases h
    · rename_i hne
      have hv := lexVisible_length T
      rcases csvParseLoop_any dbl (T.length + 1) (T.length + 1) p _ [] 0 g (by omega) (by omega) with
        ⟨rows, m, hr, _⟩ | k2
      · rcases hr with ⟨hr, _⟩ | hr
        · obtain ⟨r, pre, h1, h2⟩ := g
          exact absurd (h1.eof_iff.2 hr) hne
        · obtain ⟨i1, i2⟩ := csvParse_table dbl hr
          by_cases hR : Rect rows (nColumns 0 rows)
          · rw [i1 hR] at h0
            cases h0
            refine ⟨rows, hr, hR, ?_, rfl, ?_⟩
            · cases rows with
              | nil => exact absurd rfl hr.ne_nil
              | cons r rs =>
                rw [nColumns_cons, if_pos rfl, List.length_pos_iff]
                generalize lexVisible T = g at hr
                cases hr with
                | last hr _ => exact hr.ne_nil
                | lastNl hr _ => exact hr.ne_nil
                | cons hr _ _ => exact hr.ne_nil
            · intro r hr
              rw [List.mem_map] at hr
              obtain ⟨x, hx, rfl⟩ := hr
              rw [List.length_map]
              exact hR x hx
          · rw [i2 hR] at h0; cases h0
      · rw [k2] at h; cases h
  · rw [k] at h; cases h

/-- C27: a text spelling rows of which two have different numbers of cells is
rejected. -/
theorem c27_ragged (dbl : Bytes → Bool) (T : Bytes) (rows : List (List Cell)) (r1 r2 : List Cell)
    (h : TableText rows (lexVisible T)) (h1 : r1 ∈ rows) (h2 : r2 ∈ rows) (hne : r1.length ≠ r2.length) :
    csvParse dbl T = .fatal := by
  apply (csvParse_table dbl h).2
  intro hR
  exact hne ((hR r1 h1).trans (hR r2 h2).symm)

/-- C27: every text that spells no table is rejected. -/
theorem c27_rejects (dbl : Bytes → Bool) (T : Bytes) :
    csvParse dbl T = .fatal ↔ ¬ ∃ rows n, TableText rows (lexVisible T) ∧ Rect rows n := by
  constructor
  · rintro h ⟨rows, n, ht, hR⟩
    have hn := nColumns_rect ht.ne_nil hR
    rw [(csvParse_table dbl ht).1 (by rw [hn]; exact hR)] at h
    cases h
  · intro h
    cases hx : csvParse dbl T with
    | ok r =>
      obtain ⟨rows, a, b, _⟩ := c27_sound dbl T r.1 r.2 hx
      exact absurd ⟨rows, _, a, b⟩ h
    | fatal => rfl
    | ub => exact absurd hx (c27_total dbl T)

example : csvParse (fun _ => false) (bytesOf "a,b\nc\n") = .fatal := by decide +kernel
example : csvParse (fun _ => false) (bytesOf "a\n\nb\n") = .fatal := by decide +kernel
example : csvParse (fun _ => false) (bytesOf "\"a\"b,c\n") = .fatal := by decide +kernel

/-! ## C28 -/

/-- The order of column types: `int < double < string`, `bool < string`. -/
inductive DCT.Le : DCT → DCT → Prop
  | refl (t) : DCT.Le t t
  | int_double : DCT.Le .int .double
  | top (t) : DCT.Le t .string

/-- `t` is the least type that is at least as large as all types in `S`. -/
def IsJoin (S : List DCT) (t : DCT) : Prop :=
  (∀ s ∈ S, DCT.Le s t) ∧ ∀ u, (∀ s ∈ S, DCT.Le s u) → DCT.Le t u

/-- The types of the cells of column `c` that are not missing. -/
def columnCellTypes (rows : List (List CField)) (c : Nat) : List DCT :=
  rows.filterMap (fun r => r[c]?.bind (fun f => if f.text = none then none else some f.type))

theorem DCT.Le.trans {a b c : DCT} (h1 : DCT.Le a b) (h2 : DCT.Le b c) : DCT.Le a c := by
  cases h1 with
  | refl => exact h2
  | int_double => cases h2 with
    | refl => exact .int_double
    | top => exact .top _
  | top => cases h2 with
    | refl => exact .top _
    | top => exact .top _

theorem DCT.Le.antisymm {a b : DCT} (h1 : DCT.Le a b) (h2 : DCT.Le b a) : a = b := by
  cases h1 with
  | refl => rfl
  | int_double => cases h2
  | top => cases h2 <;> rfl

theorem csvLarger_join {a b : DCT} (ha : a ≠ .factor) (hb : b ≠ .factor) :
    DCT.Le a (csvLarger a b) ∧ DCT.Le b (csvLarger a b) ∧ csvLarger a b ≠ .factor ∧
      ∀ u, DCT.Le a u → DCT.Le b u → DCT.Le (csvLarger a b) u := by
  cases a <;> cases b <;> first
    | exact absurd rfl ha
    | exact absurd rfl hb
    | (refine ⟨?_, ?_, by decide, ?_⟩
       · first | exact .refl _ | exact .int_double | exact .top _
       · first | exact .refl _ | exact .int_double | exact .top _
       · intro u h1 h2
         cases h1 <;> cases h2 <;> first | exact .refl _ | exact .int_double | exact .top _)

/-- The update of one column type by one cell. -/
def typeStep (o : Option DCT) (f : CField) : Option DCT :=
  if f.text = none then o
  else some (match o with | none => f.type | some t => csvLarger t f.type)

theorem csvTypesRow_ok (record : List CField) (nc : Nat) (hr : record.length = nc) :
    ∀ (k c : Nat) (ct : List (Option DCT)), nc - c = k → c ≤ nc → ct.length = nc →
    ∃ ct', csvTypesRow record nc c ct = .ok ct' ∧ ct'.length = nc ∧
      ∀ i, ct'[i]? = if i < c then ct[i]? else (ct[i]?).bind (fun o => record[i]?.map (typeStep o)) := by
  intro k
  induction k with
  | zero =>
    intro c ct hk hc hl
    rw [csvTypesRow, if_neg (by omega)]
    refine ⟨ct, rfl, hl, fun i => ?_⟩
    split
    · rfl
    · rw [List.getElem?_eq_none (by omega)]; rfl
  | succ k ih =>
    intro c ct hk hc hl
    rw [csvTypesRow, if_pos (by omega)]
    have hcr : c < record.length := by omega
    have hcl : c < ct.length := by omega
    rw [readAt_ok hcr]
    simp only [Res.ok_bind]
    by_cases ht : record[c].text = none
    · rw [if_neg (by simpa using ht)]
      obtain ⟨ct', h1, h2, h3⟩ := ih (c + 1) ct (by omega) (by omega) hl
      refine ⟨ct', h1, h2, fun i => ?_⟩
      rw [h3 i]
      by_cases hi : i = c
      · subst hi
        rw [if_pos (by omega), if_neg (by omega), List.getElem?_eq_getElem hcl, List.getElem?_eq_getElem hcr]
        simp [typeStep, ht]
      · by_cases hic : i < c
        · rw [if_pos (by omega), if_pos hic]
        · rw [if_neg (by omega), if_neg hic]
    · rw [if_pos (by simpa using ht), readAt_ok hcl]
      simp only [Res.ok_bind]
      rw [writeAt_ok _ hcl]
      simp only [Res.ok_bind]
      generalize hv : (some (match ct[c] with
        | none => record[c].type
        | some t => csvLarger t record[c].type) : Option DCT) = v
      obtain ⟨ct', h1, h2, h3⟩ := ih (c + 1) (ct.set c v) (by omega) (by omega) (by simpa using hl)
      refine ⟨ct', h1, h2, fun i => ?_⟩
      rw [h3 i]
      by_cases hi : i = c
      · subst hi
        rw [if_pos (by omega), if_neg (by omega), List.getElem?_set_self hcl, List.getElem?_eq_getElem hcl,
          List.getElem?_eq_getElem hcr]
        simp [typeStep, ht, ← hv]
      · rw [List.getElem?_set_ne (by omega)]
        by_cases hic : i < c
        · rw [if_pos (by omega), if_pos hic]
        · rw [if_neg (by omega), if_neg hic]

theorem csvTypesRows_ok (nc : Nat) : ∀ (rows : List (List CField)) (ct : List (Option DCT)),
    Rect rows nc → ct.length = nc →
    ∃ ct', csvTypesRows nc rows ct = .ok ct' ∧ ct'.length = nc ∧
      ∀ i, i < nc → ∃ o, ct[i]? = some o ∧
        ct'[i]? = some (rows.foldl (fun o r => match r[i]? with | some f => typeStep o f | none => o) o)
  | [], ct, _, hl => ⟨ct, rfl, hl, fun i hi => ⟨ct[i], by simp, by simp⟩⟩
  | r :: rs, ct, hR, hl => by
    have hr : r.length = nc := hR r (by simp)
    obtain ⟨c1, h1, h2, h3⟩ := csvTypesRow_ok r nc hr (nc - 0) 0 ct rfl (by omega) hl
    obtain ⟨c2, g1, g2, g3⟩ := csvTypesRows_ok nc rs c1 (fun x hx => hR x (by simp [hx])) h2
    refine ⟨c2, ?_, g2, ?_⟩
    · rw [csvTypesRows, h1]; exact g1
    · intro i hi
      obtain ⟨o, e1, e2⟩ := g3 i hi
      refine ⟨ct[i], by simp, ?_⟩
      rw [e2]
      have := h3 i
      rw [if_neg (by omega), e1, List.getElem?_eq_getElem (show i < ct.length by omega),
        List.getElem?_eq_getElem (show i < r.length by omega)] at this
      simp only [Option.bind_some, Option.map_some, Option.some.injEq] at this
      rw [List.foldl_cons, this, List.getElem?_eq_getElem (show i < r.length by omega)]

/-- Folding the cells of a column. -/
theorem typeFold_join (i : Nat) : ∀ (rows : List (List CField)) (S : List DCT) (o : Option DCT),
    (∀ r ∈ rows, ∀ f ∈ r, f.type ≠ .factor) →
    (match o with | none => S = [] | some t => S ≠ [] ∧ t ≠ .factor ∧ IsJoin S t) →
    match rows.foldl (fun o r => match r[i]? with | some f => typeStep o f | none => o) o with
    | none => S ++ columnCellTypes rows i = []
    | some t => S ++ columnCellTypes rows i ≠ [] ∧ t ≠ .factor ∧ IsJoin (S ++ columnCellTypes rows i) t := by
  intro rows
  induction rows with
  | nil =>
    intro S o _ h
    simpa [columnCellTypes] using h
  | cons r rs ih =>
    intro S o hf h
    rw [List.foldl_cons]
    have hfr := fun x hx => hf x (List.mem_cons_of_mem _ hx)
    cases hri : r[i]? with
    | none =>
      have e : columnCellTypes (r :: rs) i = columnCellTypes rs i := by
        unfold columnCellTypes
        rw [List.filterMap_cons, hri]
        rfl
      rw [e]
      exact ih S o hfr h
    | some f =>
      have hff : f.type ≠ .factor := hf r (by simp) f (List.mem_of_getElem? hri)
      by_cases ht : f.text = none
      · have e : columnCellTypes (r :: rs) i = columnCellTypes rs i := by
          unfold columnCellTypes
          rw [List.filterMap_cons, hri]
          simp [ht]
        rw [e]
        have e2 : typeStep o f = o := by unfold typeStep; rw [if_pos ht]
        simp only [e2]
        exact ih S o hfr h
      · have e : columnCellTypes (r :: rs) i = f.type :: columnCellTypes rs i := by
          unfold columnCellTypes
          rw [List.filterMap_cons, hri]
          simp [ht]
        have e3 : S ++ columnCellTypes (r :: rs) i = (S ++ [f.type]) ++ columnCellTypes rs i := by
          rw [e]; simp
        rw [e3]
        apply ih (S ++ [f.type]) (typeStep o f) hfr
        unfold typeStep
        rw [if_neg ht]
        cases o with
        | none =>
          simp only at h
          subst h
          refine ⟨by simp, hff, ?_, ?_⟩
          · intro s hs; simp at hs; rw [hs]; exact .refl _
          · intro u hu; exact hu _ (by simp)
        | some t =>
          simp only at h
          obtain ⟨_, h2, h3, h4⟩ := h
          obtain ⟨j1, j2, j3, j4⟩ := csvLarger_join h2 hff
          refine ⟨by simp, j3, ?_, ?_⟩
          · intro s hs
            rw [List.mem_append] at hs
            rcases hs with hs | hs
            · exact (h3 s hs).trans j1
            · simp at hs; rw [hs]; exact j2
          · intro u hu
            apply j4
            · exact h4 u (fun s hs => hu s (by simp [hs]))
            · exact hu _ (by simp)

/-- C28: the type of every column is the join of the types of its cells that are not
missing (records but the first, which holds the labels); a column without such cells
is a string column. -/
theorem c28_column_types (records : List (List CField)) (nc : Nat) (hR : Rect records nc)
    (hf : ∀ r ∈ records, ∀ f ∈ r, f.type ≠ .factor) :
    ∃ types, csvColumnTypes records nc = .ok types ∧ types.length = nc ∧
      ∀ (c : Nat) (t : DCT), types[c]? = some t →
        (columnCellTypes records.tail c = [] → t = .string) ∧
        (columnCellTypes records.tail c ≠ [] → IsJoin (columnCellTypes records.tail c) t) := by
  have hRt : Rect records.tail nc := fun r hr => hR r (List.mem_of_mem_tail hr)
  obtain ⟨ct, h1, h2, h3⟩ := csvTypesRows_ok nc records.tail (List.replicate nc none) hRt (by simp)
  refine ⟨_, by unfold csvColumnTypes; rw [h1]; rfl, by simpa using h2, ?_⟩
  intro c t ht
  rw [List.getElem?_map] at ht
  have hc : c < nc := by
    rw [← h2]
    apply Nat.lt_of_not_le
    intro hle
    rw [List.getElem?_eq_none hle] at ht
    cases ht
  obtain ⟨o, e1, e2⟩ := h3 c hc
  have e1' : o = none := by
    rw [List.getElem?_replicate, if_pos hc] at e1
    exact (Option.some.inj e1).symm
  subst e1'
  rw [e2] at ht
  have key := typeFold_join c records.tail [] none (fun r hr => hf r (List.mem_of_mem_tail hr)) rfl
  simp only [List.nil_append] at key
  generalize records.tail.foldl _ none = o at key ht
  cases o with
  | none =>
    simp only [Option.map_some, Option.some.injEq] at ht
    simp only at key
    exact ⟨fun _ => ht.symm, fun h => absurd key h⟩
  | some t' =>
    simp only [Option.map_some, Option.some.injEq] at ht
    simp only at key
    subst ht
    exact ⟨fun h => absurd h key.1, fun _ => key.2.2⟩

/-- C28: order and repetition of the rows do not matter, nor do the labels. -/
theorem c28_order_irrelevant (rec1 rec2 : List (List CField)) (nc : Nat) (h1 : Rect rec1 nc) (h2 : Rect rec2 nc)
    (hf1 : ∀ r ∈ rec1, ∀ f ∈ r, f.type ≠ .factor) (hf2 : ∀ r ∈ rec2, ∀ f ∈ r, f.type ≠ .factor)
    (hsame : ∀ r, r ∈ rec1.tail ↔ r ∈ rec2.tail) : csvColumnTypes rec1 nc = csvColumnTypes rec2 nc := by
  obtain ⟨t1, a1, a2, a3⟩ := c28_column_types rec1 nc h1 hf1
  obtain ⟨t2, b1, b2, b3⟩ := c28_column_types rec2 nc h2 hf2
  rw [a1, b1]
  congr 1
  have hm : ∀ c s, s ∈ columnCellTypes rec1.tail c ↔ s ∈ columnCellTypes rec2.tail c := by
    intro c s
    unfold columnCellTypes
    simp only [List.mem_filterMap]
    constructor
    · rintro ⟨r, hr, e⟩; exact ⟨r, (hsame r).1 hr, e⟩
    · rintro ⟨r, hr, e⟩; exact ⟨r, (hsame r).2 hr, e⟩
  apply List.ext_getElem (by omega)
  intro c hc1 hc2
  obtain ⟨x1, x2⟩ := a3 c t1[c] (by simp)
  obtain ⟨y1, y2⟩ := b3 c t2[c] (by simp)
  by_cases he : columnCellTypes rec1.tail c = []
  · have he2 : columnCellTypes rec2.tail c = [] := by
      rw [List.eq_nil_iff_forall_not_mem] at he ⊢
      intro s hs
      exact he s ((hm c s).2 hs)
    rw [x1 he, y1 he2]
  · have he2 : columnCellTypes rec2.tail c ≠ [] := by
      intro hn
      apply he
      rw [List.eq_nil_iff_forall_not_mem] at hn ⊢
      intro s hs
      exact hn s ((hm c s).1 hs)
    obtain ⟨u1, u2⟩ := x2 he
    obtain ⟨v1, v2⟩ := y2 he2
    apply DCT.Le.antisymm
    · exact u2 _ (fun s hs => v1 s ((hm c s).1 hs))
    · exact v2 _ (fun s hs => u1 s ((hm c s).2 hs))

theorem csvFieldType_ne_factor (dbl : Bytes → Bool) (w : Bytes) : csvFieldType dbl w ≠ .factor := by
  unfold csvFieldType
  split
  · simp
  · simp only
    split
    · simp
    · split <;> simp

/-- C28: the hypotheses hold for all records that come out of the parser. -/
theorem c28_parsed (dbl : Bytes → Bool) (T : Bytes) (recs : List (List CField)) (n : Nat)
    (h : csvParse dbl T = .ok (recs, n)) :
    Rect recs n ∧ (∀ r ∈ recs, ∀ f ∈ r, f.type ≠ .factor) := by
  obtain ⟨rows, _, _, _, e, h5⟩ := c27_sound dbl T recs n h
  refine ⟨h5, ?_⟩
  subst e
  intro r hr f hf
  rw [List.mem_map] at hr
  obtain ⟨x, _, rfl⟩ := hr
  rw [List.mem_map] at hf
  obtain ⟨c, _, rfl⟩ := hf
  cases c with
  | missing => simp [Cell.field]
  | plain w => exact csvFieldType_ne_factor dbl w
  | quoted s => simp [Cell.field]

example : csvColumnTypes [[⟨none, .string⟩, ⟨none, .string⟩, ⟨none, .string⟩],
    [⟨some [49], .int⟩, ⟨some [49], .bool⟩, ⟨none, .string⟩],
    [⟨some [49], .double⟩, ⟨some [49], .int⟩, ⟨none, .string⟩]] 3 = .ok [.double, .string, .string] := by
  decide +kernel

/-! ## C29 -/

/-- C29 fails for octal and hexadecimal texts: the value that makes the cell an
integer is not the value stored. -/
theorem c29_octal_wrong (dbl : Bytes → Bool) :
    csvFieldType dbl (bytesOf "010") = .int ∧ strtol 0 (bytesOf "010") = (8, []) ∧
      atoi (bytesOf "010") = .ok 10 := by
  refine ⟨rfl, by decide +kernel, by decide +kernel⟩

theorem c29_hex_wrong (dbl : Bytes → Bool) :
    csvFieldType dbl (bytesOf "0x10") = .int ∧ strtol 0 (bytesOf "0x10") = (16, []) ∧
      atoi (bytesOf "0x10") = .ok 0 := by
  refine ⟨rfl, by decide +kernel, by decide +kernel⟩

/-- C29: an octal text can even make `atoi` undefined. -/
theorem c29_octal_ub (dbl : Bytes → Bool) :
    csvFieldType dbl (bytesOf "017777777777") = .int ∧ atoi (bytesOf "017777777777") = .ub := by
  refine ⟨rfl, by decide +kernel⟩

/-- C29 for decimal texts: a cell recognised as an integer whose number does not start
with a superfluous zero is stored with the value that made it an integer. Not
covered (and false): octal and hexadecimal texts. -/
theorem c29_decimal_partial (dbl : Bytes → Bool) (w : Bytes) (h : csvFieldType dbl w = .int)
    (hd : (numBody w).head? ≠ some 48 ∨ numBody w = [48]) : atoi w = .ok (strtol 0 w).1 := by
  have e : strtol 0 w = strtol 10 w := by
    rcases hd with hd | hd
    · exact strtol_zero_ten hd
    · exact strtol_zero_zero hd
  unfold csvFieldType at h
  split at h
  · cases h
  · simp only at h
    split at h
    · rename_i h2
      unfold atoi
      rw [e] at h2 ⊢
      rw [if_pos h2.2]
    · split at h <;> cases h

/-- C29: every `int` printed with `%d` is recognised as an integer and stored with its
value. -/
theorem c29_int_round_trip_partial (dbl : Bytes → Bool) (v : Int) (h : InI32 v) :
    csvFieldType dbl (intText v) = .int ∧ atoi (intText v) = .ok v := by
  refine ⟨?_, atoi_intText h⟩
  unfold csvFieldType
  rw [if_neg]
  · simp only [strtol_zero_intText]
    rw [clampLong_of (by omega) (by omega), if_pos ⟨trivial, h⟩]
  · intro e
    have hb := numBody_intText v
    have hx := natText_digits v.natAbs
    rcases e with e | e <;> rw [e] at hb
    · have : (116 : Byte) ∈ natText v.natAbs := by rw [← hb]; decide
      obtain ⟨d, hd, e⟩ := hx.2 _ this
      have := congrArg UInt8.toNat e
      rw [digitByte_toNat hd] at this
      simp at this
      omega
    · have : (102 : Byte) ∈ natText v.natAbs := by rw [← hb]; decide
      obtain ⟨d, hd, e⟩ := hx.2 _ this
      have := congrArg UInt8.toNat e
      rw [digitByte_toNat hd] at this
      simp at this
      omega

example : intText (-120) = bytesOf "-120" := by decide +kernel
example : csvFieldType (fun _ => false) (bytesOf " +42") = .int ∧ (numBody (bytesOf " +42")).head? ≠ some 48 := by
  decide +kernel

end Nx
