import Verif.Model.DataFrameIO
import Verif.Spec.DataFrameIO
import Verif.Props.DataFrame
import Verif.Props.Csv

/-!
# Lemmas about writing and reading data frames
-/

namespace Nx

/-- The CSV cell of a value. -/
def cellOf (fmtD : UInt64 → Bytes) : Option AVal → Cell
  | none => .missing
  | some (.str s) => .quoted s
  | some (.fac s) => .quoted s
  | some (.int v) => .plain (intText v)
  | some (.dbl d) => .plain (fmtD d)
  | some (.bool v) => .plain (if v ≠ 0 then [116, 114, 117, 101] else [102, 97, 108, 115, 101])

/-- The bytes of a CSV cell. -/
def Cell.bytes : Cell → Bytes
  | .missing => []
  | .plain w => w
  | .quoted s => [34] ++ dquotedBody s ++ [34]

theorem cell_type {df a} (h : DfRep df a) {r c : Nat} {v} (hr : r < a.n) (hc : c < a.cols.length)
    (hv : a.cell r c = some v) : a.cols[c]?.map Prod.fst = some v.type := by
  obtain ⟨dc, tl, e1, e2, e3⟩ := h.get hc
  obtain ⟨e, f1, f2⟩ := e3.cells r hr
  rw [hv] at f2
  rw [e2, ← e3.head]
  simp only [Option.map_some, Option.some.injEq]
  unfold Decodes at f2
  split at f2 <;> simp_all [AVal.type]

theorem dfIsNa_eq {df a} (h : DfRep df a) {r c : Nat} (hr : r < a.n) (hc : c < a.cols.length) :
    dfIsNa df r c = .ok (a.cell r c == none) := by
  have hh : a.Has r c := ⟨by omega, by omega, by omega, by omega⟩
  have := dfStep_agree (fun _ => []) h (.isNa r c)
  simp only [ATab.step, if_pos hh, Agree, dfStep, Int.toNat_natCast] at this
  obtain ⟨df', k, _⟩ := this
  rw [Res.bind_eq_ok] at k
  obtain ⟨b, k1, k2⟩ := k
  cases k2
  exact k1

theorem dfColumn_eq {df a} (h : DfRep df a) {c : Nat} {t l} (hc : a.cols[c]? = some (t, l)) :
    ∃ dc, dfColumn df c = .ok dc ∧ dc.type = t ∧ dc.label = l := by
  have hl := lt_of_get hc
  obtain ⟨dc, tl, e1, e2, e3⟩ := h.get hl
  rw [hc] at e2
  cases e2
  have := e3.head
  simp only [Prod.mk.injEq] at this
  refine ⟨dc, ?_, this.1, this.2⟩
  unfold dfColumn assertIndex
  rw [if_pos (by rw [h.len]; omega)]
  simp only [Res.ok_bind, Int.toNat_natCast]
  exact readAt_get e1

theorem dfCellText_eq (fmtD : UInt64 → Bytes) {df a} (h : DfRep df a) {r c : Nat} (hr : r < a.n)
    (hc : c < a.cols.length) : dfCellText fmtD df r c = .ok (cellOf fmtD (a.cell r c)).bytes := by
  unfold dfCellText
  rw [dfIsNa_eq h hr hc]
  simp only [Res.ok_bind]
  have hh : a.Has r c := ⟨by omega, by omega, by omega, by omega⟩
  cases hv : a.cell r c with
  | none => rfl
  | some v =>
    have ht := cell_type h hr hc hv
    have hg := dfStep_agree fmtD h (.get v.type r c)
    simp only [ATab.step, Int.toNat_natCast, hv] at hg
    rw [if_pos ⟨hh, ht⟩] at hg
    obtain ⟨df', k, _⟩ := hg
    have hx : a.cols[c]? = some (v.type, a.cols[c].2) := by
      rw [List.getElem?_eq_getElem hc] at ht ⊢
      simp only [Option.map_some, Option.some.injEq] at ht
      rw [← ht]
    obtain ⟨dc, q1, q2, _⟩ := dfColumn_eq h hx
    rw [if_neg (by simp), q1]
    simp only [Res.ok_bind, q2]
    cases v with
    | str s =>
      simp only [AVal.type, dfStep, Res.bind_eq_ok] at k
      obtain ⟨x, k1, k2⟩ := k
      cases k2
      simp only [AVal.type, dfCellOf, k1]
      rfl
    | int s =>
      simp only [AVal.type, dfStep, Res.bind_eq_ok] at k
      obtain ⟨x, k1, k2⟩ := k
      cases k2
      simp only [AVal.type, dfCellOf, k1]
      rfl
    | dbl s =>
      simp only [AVal.type, dfStep, Res.bind_eq_ok] at k
      obtain ⟨x, k1, k2⟩ := k
      cases k2
      simp only [AVal.type, dfCellOf, k1]
      rfl
    | bool s =>
      simp only [AVal.type, dfStep, Res.bind_eq_ok] at k
      obtain ⟨x, k1, k2⟩ := k
      cases k2
      simp only [AVal.type, dfCellOf, k1]
      rfl
    | fac s =>
      simp only [AVal.type, dfStep, Res.bind_eq_ok] at k
      obtain ⟨x, k1, k2⟩ := k
      cases k2
      simp only [AVal.type, dfCellOf, k1]
      rfl

/-- Cells of a row with separators and the newline. -/
def joinNl : List Bytes → Bytes
  | [] => []
  | [t] => t ++ [10]
  | t :: u :: ts => t ++ [44] ++ joinNl (u :: ts)

theorem joinNl_cons (t : Bytes) (ts : List Bytes) :
    joinNl (t :: ts) = t ++ (if ts ≠ [] then [44] else [10]) ++ joinNl ts := by
  cases ts with
  | nil => simp [joinNl]
  | cons => simp [joinNl]

theorem dfPrintRow_eq (fmtD : UInt64 → Bytes) {df a} (h : DfRep df a) {r : Nat} (hr : r < a.n) :
    ∀ (k c : Nat), a.cols.length - c = k →
    dfPrintRow fmtD [44] df r a.cols.length c =
      .ok (joinNl ((List.range' c k).map (fun c => (cellOf fmtD (a.cell r c)).bytes))) := by
  intro k
  induction k with
  | zero =>
    intro c hk
    rw [dfPrintRow, if_neg (by omega)]
    rfl
  | succ k ih =>
    intro c hk
    rw [dfPrintRow, if_pos (by omega), dfCellText_eq fmtD h hr (by omega), ih (c + 1) (by omega)]
    simp only [Res.ok_bind, Res.pure_eq, List.range'_succ, List.map_cons]
    rw [joinNl_cons]
    by_cases hk0 : k = 0
    · subst hk0
      rw [if_neg (by omega)]
      simp
    · rw [if_pos (by omega), if_pos]
      intro e
      have := congrArg List.length e
      simp at this
      exact hk0 this

theorem dfPrintLabels_eq {df a} (h : DfRep df a) : ∀ (k c : Nat), a.cols.length - c = k →
    dfPrintLabels [44] df a.cols.length c =
      .ok (joinNl ((a.cols.drop c).map (fun x => fputsReadable (some x.2)))) := by
  intro k
  induction k with
  | zero =>
    intro c hk
    rw [dfPrintLabels, if_neg (by omega), List.drop_eq_nil_of_le (by omega)]
    rfl
  | succ k ih =>
    intro c hk
    have hc : c < a.cols.length := by omega
    obtain ⟨dc, q1, q2, q3⟩ := dfColumn_eq h (c := c) (t := a.cols[c].1) (l := a.cols[c].2)
      (List.getElem?_eq_getElem hc)
    rw [dfPrintLabels, if_pos hc, q1]
    simp only [Res.ok_bind]
    rw [ih (c + 1) (by omega)]
    simp only [Res.ok_bind, Res.pure_eq, q3]
    rw [List.drop_eq_getElem_cons hc, List.map_cons, joinNl_cons]
    by_cases hk0 : k = 0
    · rw [if_neg (by omega), if_neg]
      simp
      omega
    · rw [if_pos (by omega), if_pos]
      simp
      omega

theorem dfPrintRows_eq (fmtD : UInt64 → Bytes) {df a} (h : DfRep df a) : ∀ (k r : Nat), a.n - r = k →
    dfPrintRows fmtD [44] df a.cols.length a.n r =
      .ok (((List.range' r k).map (fun r => joinNl ((List.range a.cols.length).map
        (fun c => (cellOf fmtD (a.cell r c)).bytes)))).flatten) := by
  intro k
  induction k with
  | zero =>
    intro r hk
    rw [dfPrintRows, if_neg (by omega)]
    rfl
  | succ k ih =>
    intro r hk
    rw [dfPrintRows, if_pos (by omega), dfPrintRow_eq fmtD h (by omega) _ 0 rfl, ih (r + 1) (by omega)]
    simp only [Res.ok_bind, Res.pure_eq, List.range'_succ, List.map_cons, List.flatten_cons, List.range_eq_range',
      Nat.sub_zero]

/-- The labels as CSV cells. -/
def labelCells (a : ATab) : List Cell := a.cols.map (fun x => .quoted x.2)

/-- A row as CSV cells. -/
def rowCells (fmtD : UInt64 → Bytes) (a : ATab) (r : Nat) : List Cell :=
  (List.range a.cols.length).map (fun c => cellOf fmtD (a.cell r c))

theorem readable_label : ∀ {l : Bytes}, (∀ b ∈ l, LabelByte b) → readableBody l = dquotedBody l
  | [], _ => rfl
  | b :: l, h => by
    obtain ⟨_, h1, h2, h3, h4, h5, h6, h7⟩ := h b (by simp)
    rw [readableBody, dquotedBody, readable_label (fun x hx => h x (by simp [hx]))]
    unfold readableChar dquotedChar
    rw [if_neg h3, if_neg h4, if_neg h5, if_neg h6, if_neg h7, if_neg h1, if_neg h2, if_neg h1]

theorem dfSaveCsv_eq (fmtD : UInt64 → Bytes) {df a} (h : DfRep df a)
    (hl : ∀ x ∈ a.cols, ∀ b ∈ x.2, LabelByte b) :
    dfSaveCsv fmtD df = .ok ((((labelCells a) :: (List.range a.n).map (rowCells fmtD a)).map
      (fun cs => joinNl (cs.map Cell.bytes))).flatten) := by
  unfold dfSaveCsv dfFprintf
  rw [h.len, h.n, Int.toNat_natCast, dfPrintLabels_eq h _ 0 rfl, dfPrintRows_eq fmtD h _ 0 rfl]
  simp only [Res.ok_bind, Res.pure_eq, List.map_cons, List.flatten_cons, List.drop_zero, List.map_map,
    labelCells, Nat.sub_zero, List.range_eq_range']
  congr 2
  · congr 1
    apply List.map_congr_left
    intro x hx
    simp only [Function.comp, Cell.bytes, fputsReadable]
    rw [readable_label (hl x hx)]
  · congr 1
    apply List.map_congr_left
    intro r _
    simp only [Function.comp, rowCells, List.map_map, List.range_eq_range']
    rfl

theorem intText_chars (v : Int) : intText v ≠ [] ∧ ∀ b ∈ intText v, PlainChar b ∧ TextByte b := by
  obtain ⟨h1, h2⟩ := natText_digits v.natAbs
  have key : ∀ b ∈ natText v.natAbs, PlainChar b ∧ TextByte b := by
    intro b hb
    obtain ⟨d, hd, rfl⟩ := h2 b hb
    have hn := digitByte_toNat hd
    refine ⟨⟨?_, ?_, ?_⟩, ?_, ?_⟩ <;> intro e <;> rw [e] at hn <;> simp at hn <;> omega
  unfold intText
  split
  · refine ⟨by simp, ?_⟩
    intro b hb
    rw [List.mem_cons] at hb
    rcases hb with rfl | hb
    · exact ⟨⟨by decide, by decide, by decide⟩, by decide, by decide⟩
    · exact key b hb
  · exact ⟨h1, key⟩

theorem cellText_of (fmtD : UInt64 → Bytes) {dbl atof} {v : Option AVal} (h : ∀ x, v = some x → x.Ok fmtD dbl atof) :
    CellText (cellOf fmtD v) (cellOf fmtD v).bytes ∧ ∀ b ∈ (cellOf fmtD v).bytes, TextByte b := by
  have q : ∀ s : Bytes, (∀ b ∈ s, TextByte b) → CellText (.quoted s) (Cell.quoted s).bytes ∧
      ∀ b ∈ (Cell.quoted s).bytes, TextByte b := by
    intro s hs
    refine ⟨.quoted (doubled_dquotedBody s), ?_⟩
    intro b hb
    have : b = 34 ∨ b ∈ s := mem_fputsDoubleQuoted hb
    rcases this with rfl | h
    · exact ⟨by decide, by decide⟩
    · exact hs b h
  cases v with
  | none => exact ⟨.missing, fun b hb => by simp [cellOf, Cell.bytes] at hb⟩
  | some x =>
    have hx := h x rfl
    cases x with
    | str s => exact q s hx
    | fac s => exact q s hx
    | int v =>
      obtain ⟨h1, h2⟩ := intText_chars v
      exact ⟨.plain h1 (fun b hb => (h2 b hb).1), fun b hb => (h2 b hb).2⟩
    | dbl d =>
      have hx : DoubleOk fmtD dbl atof d := hx
      exact ⟨.plain hx.ne (fun b hb => (hx.chars b hb).1), fun b hb => (hx.chars b hb).2⟩
    | bool v =>
      simp only [cellOf]
      split
      · exact ⟨.plain (by decide) (by unfold PlainChar; decide), by unfold TextByte Cell.bytes; decide⟩
      · exact ⟨.plain (by decide) (by unfold PlainChar; decide), by unfold TextByte Cell.bytes; decide⟩

theorem joinNl_row : ∀ {cs : List Cell}, cs ≠ [] → (∀ c ∈ cs, CellText c c.bytes) →
    ∃ t, RowText cs t ∧ joinNl (cs.map Cell.bytes) = t ++ [10]
  | [], h, _ => absurd rfl h
  | [c], _, hc => ⟨c.bytes, .one (hc c (by simp)), rfl⟩
  | c :: d :: cs, _, hc => by
    obtain ⟨t, h1, h2⟩ := joinNl_row (cs := d :: cs) (by simp) (fun x hx => hc x (by simp [hx]))
    refine ⟨_, .cons (hc c (by simp)) h1, ?_⟩
    simp only [List.map_cons] at h2
    simp only [List.map_cons, joinNl, h2]
    simp

theorem joinNl_bytes : ∀ {ts : List Bytes} {b : Byte}, b ∈ joinNl ts → b = 10 ∨ b = 44 ∨ ∃ t ∈ ts, b ∈ t
  | [], b, h => by simp [joinNl] at h
  | t :: ts, b, h => by
    rw [joinNl_cons, List.mem_append, List.mem_append] at h
    rcases h with (h | h) | h
    · exact Or.inr (Or.inr ⟨t, by simp, h⟩)
    · split at h
      · simp at h; exact Or.inr (Or.inl h)
      · simp at h; exact Or.inl h
    · rcases joinNl_bytes h with h | h | ⟨u, hu, hb⟩
      · exact Or.inl h
      · exact Or.inr (Or.inl h)
      · exact Or.inr (Or.inr ⟨u, by simp [hu], hb⟩)

theorem rows_table : ∀ {rows : List (List Cell)}, rows ≠ [] →
    (∀ cs ∈ rows, cs ≠ [] ∧ cs ≠ [.missing] ∧ ∀ c ∈ cs, CellText c c.bytes) →
    TableText rows ((rows.map (fun cs => joinNl (cs.map Cell.bytes))).flatten)
  | [], h, _ => absurd rfl h
  | [r], _, hr => by
    obtain ⟨h1, h2, h3⟩ := hr r (by simp)
    obtain ⟨t, e1, e2⟩ := joinNl_row h1 h3
    simp only [List.map_cons, List.map_nil, List.flatten_cons, List.flatten_nil, List.append_nil, e2]
    exact .lastNl e1 h2
  | r :: s :: rows, _, hr => by
    obtain ⟨h1, h2, h3⟩ := hr r (by simp)
    obtain ⟨t, e1, e2⟩ := joinNl_row h1 h3
    have ih := rows_table (rows := s :: rows) (by simp) (fun x hx => hr x (by simp [hx]))
    rw [List.map_cons, List.flatten_cons, e2, List.append_assoc]
    exact .cons e1 h2 ih

theorem csvFieldType_intText (dbl : Bytes → Bool) {v : Int} (h : InI32 v) : csvFieldType dbl (intText v) = .int := by
  have hd : ∀ b ∈ intText v, b = 45 ∨ isDigitB 10 b = true := by
    intro b hb
    unfold intText at hb
    split at hb
    · rw [List.mem_cons] at hb
      rcases hb with rfl | hb
      · exact Or.inl rfl
      · exact Or.inr (isDigitB_of_mem_natText hb)
    · exact Or.inr (isDigitB_of_mem_natText hb)
  unfold csvFieldType
  rw [if_neg]
  · simp only [strtol_zero_intText]
    rw [clampLong_of (by omega) (by omega)]
    simp only [true_and]
    rw [if_pos h]
  · rintro (e | e)
    · have := hd 101 (by rw [e]; decide)
      revert this; decide
    · have := hd 101 (by rw [e]; decide)
      revert this; decide

theorem isJoin_unique {S : List DCT} {t u : DCT} (h1 : IsJoin S t) (h2 : IsJoin S u) : t = u :=
  DCT.Le.antisymm (h1.2 u h2.1) (h2.2 t h1.1)

theorem isJoin_const {S : List DCT} {t : DCT} (hne : S ≠ []) (h : ∀ s ∈ S, s = t) : IsJoin S t := by
  refine ⟨fun s hs => by rw [h s hs]; exact .refl _, fun u hu => ?_⟩
  cases S with
  | nil => exact absurd rfl hne
  | cons s S =>
    have := h s (by simp)
    subst this
    exact hu s (by simp)

theorem isJoin_double {S : List DCT} (hd : .double ∈ S) (h : ∀ s ∈ S, s = .int ∨ s = .double) : IsJoin S .double := by
  refine ⟨fun s hs => ?_, fun u hu => hu _ hd⟩
  rcases h s hs with rfl | rfl
  · exact .int_double
  · exact .refl _

/-- The records of the written table. -/
def savedRecords (fmtD : UInt64 → Bytes) (dbl : Bytes → Bool) (a : ATab) : List (List CField) :=
  ((labelCells a) :: (List.range a.n).map (rowCells fmtD a)).map (List.map (Cell.field dbl))

theorem savedRecords_tail (fmtD : UInt64 → Bytes) (dbl : Bytes → Bool) (a : ATab) :
    (savedRecords fmtD dbl a).tail = (List.range a.n).map (fun r => (rowCells fmtD a r).map (Cell.field dbl)) := by
  simp [savedRecords, Function.comp_def]

theorem savedRecords_rect (fmtD : UInt64 → Bytes) (dbl : Bytes → Bool) (a : ATab) :
    Rect (savedRecords fmtD dbl a) a.cols.length := by
  intro r hr
  unfold savedRecords at hr
  rw [List.mem_map] at hr
  obtain ⟨cs, hcs, rfl⟩ := hr
  rw [List.length_map]
  rw [List.mem_cons, List.mem_map] at hcs
  rcases hcs with rfl | ⟨x, _, rfl⟩
  · simp [labelCells]
  · simp [rowCells]

theorem field_ne_factor (dbl : Bytes → Bool) (c : Cell) : (c.field dbl).type ≠ .factor := by
  cases c with
  | missing => simp [Cell.field]
  | plain w => exact csvFieldType_ne_factor dbl w
  | quoted s => simp [Cell.field]

theorem mem_columnCellTypes (fmtD : UInt64 → Bytes) (dbl : Bytes → Bool) (a : ATab) {c : Nat} (hc : c < a.cols.length)
    (s : DCT) : s ∈ columnCellTypes (savedRecords fmtD dbl a).tail c ↔
      ∃ r v, r < a.n ∧ a.cell r c = some v ∧ s = ((cellOf fmtD (some v)).field dbl).type := by
  rw [savedRecords_tail]
  unfold columnCellTypes
  simp only [List.mem_filterMap, List.mem_map, List.mem_range]
  constructor
  · rintro ⟨_, ⟨r, hr, rfl⟩, h⟩
    rw [List.getElem?_map, rowCells, List.getElem?_map, List.getElem?_range hc] at h
    simp only [Option.map_some, Option.bind_some] at h
    cases hv : a.cell r c with
    | none => rw [hv] at h; simp [cellOf, Cell.field] at h
    | some v =>
      rw [hv] at h
      refine ⟨r, v, hr, hv, ?_⟩
      split at h
      · cases h
      · exact (Option.some.inj h).symm
  · rintro ⟨r, v, hr, hv, rfl⟩
    refine ⟨_, ⟨r, hr, rfl⟩, ?_⟩
    rw [List.getElem?_map, rowCells, List.getElem?_map, List.getElem?_range hc]
    simp only [Option.map_some, Option.bind_some, hv]
    rw [if_neg]
    cases v <;> simp [cellOf, Cell.field]

theorem doubleField {fmtD dbl atof d} (h : DoubleOk fmtD dbl atof d) :
    csvFieldType dbl (fmtD d) =
      if (strtol 0 (fmtD d)).2 = [] ∧ InI32 (strtol 0 (fmtD d)).1 then .int else .double := by
  unfold csvFieldType
  rw [if_neg]
  · simp only
    split
    · rfl
    · rw [if_pos h.all]
  · rintro (e | e)
    · exact h.notBool.1 e
    · exact h.notBool.2 e

theorem boolField (dbl : Bytes → Bool) (v : Int) :
    csvFieldType dbl (if v ≠ 0 then [116, 114, 117, 101] else [102, 97, 108, 115, 101]) = .bool := by
  unfold csvFieldType
  rw [if_pos]
  split
  · exact Or.inl rfl
  · exact Or.inr rfl

theorem savedTypes {fmtD dbl atof} {df : DFrame} {a : ATab} (h : DfRep df a) (hs : Savable fmtD dbl atof a) :
    csvColumnTypes (savedRecords fmtD dbl a) a.cols.length = .ok (a.cols.map (fun x => x.1.loaded)) := by
  obtain ⟨types, h1, h2, h3⟩ := c28_column_types (savedRecords fmtD dbl a) a.cols.length (savedRecords_rect _ _ _)
    (by
      intro r hr f hf
      unfold savedRecords at hr
      rw [List.mem_map] at hr
      obtain ⟨cs, _, rfl⟩ := hr
      rw [List.mem_map] at hf
      obtain ⟨c, _, rfl⟩ := hf
      exact field_ne_factor dbl c)
  rw [h1]
  congr 1
  apply List.ext_getElem (by simp [h2])
  intro c hc1 hc2
  have hc : c < a.cols.length := by omega
  obtain ⟨g1, g2⟩ := h3 c types[c] (by simp)
  rw [List.getElem_map]
  have hm := mem_columnCellTypes fmtD dbl a hc
  generalize columnCellTypes (savedRecords fmtD dbl a).tail c = S at g1 g2 hm
  have hcol : a.cols[c]? = some (a.cols[c].1, a.cols[c].2) := List.getElem?_eq_getElem hc
  generalize types[c] = t at g1 g2
  have key : ∀ u, IsJoin S u → S ≠ [] → t = u := fun u hu hne => isJoin_unique (g2 hne) hu
  have typ : ∀ r v, r < a.n → a.cell r c = some v → v.type = a.cols[c].1 := by
    intro r v hr hv
    have := cell_type h hr hc hv
    rw [hcol] at this
    simpa using this.symm
  have str : (a.cols[c].1 = .string ∨ a.cols[c].1 = .factor) → t = .string := by
    intro ht
    by_cases hne : S = []
    · exact g1 hne
    · apply key _ (isJoin_const hne _) hne
      intro s hs
      obtain ⟨r, v, hr, hv, rfl⟩ := (hm s).1 hs
      have := typ r v hr hv
      cases v with
      | str s => rfl
      | fac s => rfl
      | int s => rw [← this] at ht; simp [AVal.type] at ht
      | dbl s => rw [← this] at ht; simp [AVal.type] at ht
      | bool s => rw [← this] at ht; simp [AVal.type] at ht
  cases ht : a.cols[c].1 with
  | string => rw [str (Or.inl ht)]; rfl
  | factor => rw [str (Or.inr ht)]; rfl
  | int =>
    rw [ht] at hcol
    obtain ⟨r, hr, hv⟩ := hs.present c _ (Or.inl hcol)
    have hne : S ≠ [] := by
      cases hx : a.cell r c with
      | none => exact absurd hx hv
      | some v => exact List.ne_nil_of_mem ((hm _).2 ⟨r, v, hr, hx, rfl⟩)
    apply key _ (isJoin_const hne _) hne
    intro s hs'
    obtain ⟨r, v, hr, hv, rfl⟩ := (hm s).1 hs'
    have h5 := typ r v hr hv
    rw [ht] at h5
    have hok := hs.cells r c v hr hc hv
    cases v with
    | int s => exact csvFieldType_intText dbl hok
    | _ => simp [AVal.type] at h5
  | bool =>
    rw [ht] at hcol
    obtain ⟨r, hr, hv⟩ := hs.present c _ (Or.inr hcol)
    have hne : S ≠ [] := by
      cases hx : a.cell r c with
      | none => exact absurd hx hv
      | some v => exact List.ne_nil_of_mem ((hm _).2 ⟨r, v, hr, hx, rfl⟩)
    apply key _ (isJoin_const hne _) hne
    intro s hs'
    obtain ⟨r, v, hr, hv, rfl⟩ := (hm s).1 hs'
    have h5 := typ r v hr hv
    rw [ht] at h5
    cases v with
    | bool s => exact boolField dbl s
    | _ => simp [AVal.type] at h5
  | double =>
    rw [ht] at hcol
    obtain ⟨r, d, hr, hv, hd⟩ := hs.double c _ hcol
    have hmem : DCT.double ∈ S := by
      refine (hm _).2 ⟨r, _, hr, hv, ?_⟩
      simp only [cellOf, Cell.field]
      rw [doubleField (hs.cells r c _ hr hc hv), if_neg hd]
    apply key _ (isJoin_double hmem _) (List.ne_nil_of_mem hmem)
    intro s hs'
    obtain ⟨r, v, hr, hv, rfl⟩ := (hm s).1 hs'
    have h5 := typ r v hr hv
    rw [ht] at h5
    have hok := hs.cells r c v hr hc hv
    cases v with
    | dbl s =>
      simp only [cellOf, Cell.field]
      rw [doubleField hok]
      split
      · exact Or.inl rfl
      · exact Or.inr rfl
    | _ => simp [AVal.type] at h5

theorem csvAddColumns_eq (labels : List CField) (types : List DCT) (L : List (DCT × Bytes))
    (h1 : types = L.map Prod.fst) (h2 : labels = L.map (fun x => ⟨some x.2, .string⟩)) : ∀ (k i : Nat) (df : DFrame),
    L.length - i = k → i ≤ L.length → DfRep df { cols := L.take i, n := 0, cell := fun _ _ => none } →
    ∃ df', csvAddColumns labels types L.length i df = .ok df' ∧
      DfRep df' { cols := L, n := 0, cell := fun _ _ => none } := by
  intro k
  induction k with
  | zero =>
    intro i df hk hi h
    rw [csvAddColumns, if_neg (by omega)]
    refine ⟨df, rfl, ?_⟩
    rw [List.take_of_length_le (by omega)] at h
    exact h
  | succ k ih =>
    intro i df hk hi h
    have hil : i < L.length := by omega
    rw [csvAddColumns, if_pos hil, readAt_get (x := ⟨some L[i].2, .string⟩) (by rw [h2]; simp [hil]),
      readAt_get (x := L[i].1) (by rw [h1]; simp [hil])]
    simp only [Res.ok_bind]
    apply ih (i + 1) _ (by omega) (by omega)
    refine (dfAddColumn_rep h L[i].1 L[i].2).congr ?_ rfl ?_
    · rw [List.take_succ_eq_append_getElem hil]
    · intro r c hr _
      exact absurd hr (by simp)

/-- Storing one cell of a record. -/
theorem csvSetCell_eq {fmtD dbl atof} {df : DFrame} {b : ATab} (h : DfRep df b) {r c : Nat} (hr : r < b.n) {t l}
    (hc : b.cols[c]? = some (t, l)) (v : Option AVal) (hv : ∀ x, v = some x → x.Ok fmtD dbl atof ∧ x.loaded.type = t) :
    ∃ df', csvSetCell atof df r c ((cellOf fmtD v).field dbl) = .ok df' ∧
      DfRep df' (b.update r c (v.map AVal.loaded)) := by
  have hcl := lt_of_get hc
  have hh : b.Has r c := ⟨by omega, by omega, by omega, by omega⟩
  obtain ⟨dc, q1, q2, _⟩ := dfColumn_eq h hc
  cases v with
  | none =>
    have := (dfSetNa_eq h r c).1 hh
    simp only [Int.toNat_natCast] at this
    exact this
  | some x =>
    obtain ⟨hok, ht⟩ := hv x rfl
    have hset : ∀ y : AVal, y.type = t → ∃ df', dfSetVal df r c y = .ok df' ∧ DfRep df' (b.update r c (some y)) := by
      intro y hy
      have := (dfSetVal_eq h r c y).1 ⟨hh, by rw [Int.toNat_natCast, hc, hy]; rfl⟩
      simpa using this
    have := hset x.loaded ht
    cases x with
    | str s =>
      simp only [csvSetCell, cellOf, Cell.field, q1, Res.ok_bind, q2]
      rw [← ht]
      exact this
    | fac s =>
      simp only [csvSetCell, cellOf, Cell.field, q1, Res.ok_bind, q2]
      rw [← ht]
      exact this
    | int s =>
      simp only [csvSetCell, cellOf, Cell.field, q1, Res.ok_bind, q2]
      rw [← ht]
      simp only [AVal.loaded, AVal.type]
      rw [atoi_intText hok]
      exact this
    | dbl s =>
      simp only [csvSetCell, cellOf, Cell.field, q1, Res.ok_bind, q2]
      rw [← ht]
      simp only [AVal.loaded, AVal.type]
      have hok : DoubleOk fmtD dbl atof s := hok
      rw [hok.back]
      exact this
    | bool s =>
      simp only [csvSetCell, cellOf, Cell.field, q1, Res.ok_bind, q2]
      rw [← ht]
      simp only [AVal.loaded, AVal.type]
      rcases hok with rfl | rfl
      · exact this
      · exact this

theorem loaded_type (v : AVal) : v.loaded.type = v.type.loaded := by cases v <;> rfl

theorem csvFillRow_eq {fmtD dbl atof} {a : ATab} {df0 : DFrame} (h0 : DfRep df0 a) (hs : Savable fmtD dbl atof a) {r : Nat}
    (hr : r < a.n) : ∀ (k c : Nat) (df : DFrame), a.cols.length - c = k → c ≤ a.cols.length →
    DfRep df {
      cols := a.loaded.cols
      n := r + 1
      cell := fun r' c' => if r' = r then (if c' < c then a.loaded.cell r c' else none) else a.loaded.cell r' c' } →
    ∃ df', csvFillRow atof ((rowCells fmtD a r).map (Cell.field dbl)) r a.cols.length c df = .ok df' ∧
      DfRep df' { a.loaded with n := r + 1 } := by
  intro k
  induction k with
  | zero =>
    intro c df hk hc h
    rw [csvFillRow, if_neg (by omega)]
    refine ⟨df, rfl, h.congr rfl rfl ?_⟩
    intro r' c' hr' hc'
    simp only [ATab.loaded, List.length_map] at hc'
    simp only
    split
    · rename_i e; subst e; rw [if_pos (by omega)]
    · rfl
  | succ k ih =>
    intro c df hk hc h
    have hcl : c < a.cols.length := by omega
    rw [csvFillRow, if_pos hcl, readAt_get (x := (cellOf fmtD (a.cell r c)).field dbl) (by
      rw [List.getElem?_map, rowCells, List.getElem?_map, List.getElem?_range hcl]; rfl)]
    simp only [Res.ok_bind]
    have hcol : a.loaded.cols[c]? = some (a.cols[c].1.loaded, a.cols[c].2) := by
      simp [ATab.loaded, hcl]
    obtain ⟨df1, k1, k2⟩ := csvSetCell_eq (fmtD := fmtD) (dbl := dbl) (atof := atof) h (r := r) (c := c) (by simp) hcol
      (a.cell r c) (by
        intro x hx
        refine ⟨hs.cells r c x hr hcl hx, ?_⟩
        have := cell_type h0 hr hcl hx
        rw [List.getElem?_eq_getElem hcl] at this
        simp only [Option.map_some, Option.some.injEq] at this
        rw [loaded_type, this])
    rw [k1]
    simp only [Res.ok_bind]
    apply ih (c + 1) df1 (by omega) (by omega)
    refine k2.congr rfl rfl ?_
    intro r' c' hr' hc'
    simp only [ATab.update, ATab.loaded]
    by_cases hrr : r' = r
    · subst hrr
      simp only [true_and, if_true]
      by_cases hcc : c' = c
      · subst hcc; simp
      · rw [if_neg hcc]
        by_cases hlt : c' < c
        · rw [if_pos (by omega), if_pos hlt]
        · rw [if_neg (by omega), if_neg hlt]
    · rw [if_neg hrr, if_neg (by simp [hrr]), if_neg hrr]

theorem csvFill_eq {fmtD dbl atof} {a : ATab} {df0 : DFrame} (h0 : DfRep df0 a) (hs : Savable fmtD dbl atof a) :
    ∀ (k r : Nat) (df : DFrame), a.n - r = k → r ≤ a.n → DfRep df { a.loaded with n := r } →
    ∃ df', csvFill atof a.cols.length ((List.range' r k).map (fun r => (rowCells fmtD a r).map (Cell.field dbl))) df = .ok df' ∧
      DfRep df' a.loaded := by
  intro k
  induction k with
  | zero =>
    intro r df hk hr h
    have : r = a.n := by omega
    subst this
    exact ⟨df, rfl, h⟩
  | succ k ih =>
    intro r df hk hr h
    have hrows := hs.rows
    simp only [List.range'_succ, List.map_cons, csvFill]
    have h1 := dfAddRow_eq h
    unfold ATab.addRow at h1
    rw [if_pos (show r < 2147483647 by omega)] at h1
    obtain ⟨df1, k1, k2⟩ := h1
    rw [k1]
    simp only [Res.ok_bind]
    obtain ⟨df2, k3, k4⟩ := csvFillRow_eq h0 hs (r := r) (by omega) _ 0 df1 rfl (by omega) (by
      refine k2.congr rfl rfl ?_
      intro r' c' hr' hc'
      simp only [Nat.not_lt_zero, if_false])
    rw [k3]
    simp only [Res.ok_bind]
    exact ih (r + 1) df2 (by omega) (by omega) k4

theorem dfReadAll_eq : ∀ (inp out : Bytes) (k : Nat), k ≤ 20 → (out.length : Int) < 1024 * 2 ^ k - 2 →
    out.length + inp.length ≤ 1073741821 → dfReadAll (1024 * 2 ^ k) out inp = .ok (out ++ inp)
  | [], out, k, _, h, _ => by
    rw [dfReadAll, if_pos (by omega)]
    simp
  | b :: inp, out, k, hk, h, hl => by
    rw [dfReadAll, if_pos (by omega)]
    simp only [List.length_cons] at hl
    have hk20 : k = 20 ∨ k ≤ 19 := by omega
    split
    · rename_i hge
      rcases hk20 with rfl | hk19
      · exfalso
        simp only [Int.reducePow, Int.reduceMul] at hge h
        omega
      · have hp : (2 : Int) ^ k ≤ 2 ^ 19 := by
          have : (2 : Nat) ^ k ≤ 2 ^ 19 := Nat.pow_le_pow_right (by decide) hk19
          exact_mod_cast this
        have e : (1024 * 2 ^ k * 2 : Int) = 1024 * 2 ^ (k + 1) := by rw [Int.pow_succ, Int.mul_assoc]
        have h19 : (2 : Int) ^ 19 = 524288 := by decide
        rw [if_pos (by omega), e, dfReadAll_eq inp (out ++ [b]) (k + 1) (by omega)]
        · simp
        · rw [← e]
          simp only [List.length_append, List.length_cons, List.length_nil]
          have hpos : (1 : Int) ≤ 2 ^ k := by
            have : (1 : Nat) ≤ 2 ^ k := Nat.one_le_two_pow
            exact_mod_cast this
          omega
        · simp only [List.length_append, List.length_cons, List.length_nil]; omega
    · rename_i hge
      rw [dfReadAll_eq inp (out ++ [b]) k hk]
      · simp
      · simp only [List.length_append, List.length_cons, List.length_nil]; omega
      · simp only [List.length_append, List.length_cons, List.length_nil]; omega

end Nx
