import Verif.Lemmas.DataFrameIO

/-!
# C32, C33: writing data frames as CSV and reading them back
-/

namespace Nx

theorem loadCsv_savable {fmtD dbl atof} {df : DFrame} {a : ATab} (h : DfRep df a) (hs : Savable fmtD dbl atof a) :
    ∃ txt, dfSaveCsv fmtD df = .ok txt ∧ (txt.length ≤ 1073741821 →
      ∃ df', dfLoadCsv fmtD dbl atof txt false = .ok df' ∧ DfRep df' a.loaded) := by
  refine ⟨_, dfSaveCsv_eq fmtD h hs.labels, ?_⟩
  intro hlen
  have hncols : 0 < a.cols.length := List.length_pos_iff.2 hs.cols
  have hrows : ∀ cs ∈ (labelCells a) :: (List.range a.n).map (rowCells fmtD a),
      cs ≠ [] ∧ cs ≠ [.missing] ∧ ∀ c ∈ cs, CellText c c.bytes ∧ ∀ b ∈ c.bytes, TextByte b := by
    intro cs hcs
    rw [List.mem_cons, List.mem_map] at hcs
    rcases hcs with rfl | ⟨r, hr, rfl⟩
    · refine ⟨by simp [labelCells, hs.cols], ?_, ?_⟩
      · intro e
        have hm : Cell.missing ∈ labelCells a := by rw [e]; simp
        unfold labelCells at hm
        rw [List.mem_map] at hm
        obtain ⟨x, _, hx⟩ := hm
        cases hx
      · intro c hc
        unfold labelCells at hc
        rw [List.mem_map] at hc
        obtain ⟨x, hx, rfl⟩ := hc
        exact cellText_of (dbl := dbl) (atof := atof) fmtD (v := some (.str x.2))
          (fun y hy => by cases hy; exact fun b hb => (hs.labels x hx b hb).1)
    · rw [List.mem_range] at hr
      refine ⟨?_, ?_, ?_⟩
      · intro e
        have := congrArg List.length e
        simp [rowCells] at this
        exact hs.cols this
      · intro e
        have h1 := congrArg List.length e
        simp only [rowCells, List.length_map, List.length_range, List.length_cons, List.length_nil] at h1
        have hx := hs.single h1 r hr
        have h2 := congrArg (fun l => l[0]?) e
        simp only [rowCells, List.getElem?_map, List.getElem?_range hncols, Option.map_some, List.getElem?_cons_zero,
          Option.some.injEq] at h2
        cases hv : a.cell r 0 with
        | none => exact hx hv
        | some v => rw [hv] at h2; cases v <;> simp [cellOf] at h2
      · intro c hc
        unfold rowCells at hc
        rw [List.mem_map] at hc
        obtain ⟨k, hk, rfl⟩ := hc
        rw [List.mem_range] at hk
        exact cellText_of fmtD (fun x hx => hs.cells r k x hr hk hx)
  have htab := rows_table (rows := (labelCells a) :: (List.range a.n).map (rowCells fmtD a)) (by simp)
    (fun cs hcs => ⟨(hrows cs hcs).1, (hrows cs hcs).2.1, fun c hc => ((hrows cs hcs).2.2 c hc).1⟩)
  have hbytes : ∀ b ∈ (((labelCells a) :: (List.range a.n).map (rowCells fmtD a)).map
      (fun cs => joinNl (cs.map Cell.bytes))).flatten, b ≠ 0 ∧ b ≠ 255 := by
    intro b hb
    rw [List.mem_flatten] at hb
    obtain ⟨t, ht, hb⟩ := hb
    rw [List.mem_map] at ht
    obtain ⟨cs, hcs, rfl⟩ := ht
    rcases joinNl_bytes hb with rfl | rfl | ⟨u, hu, hb⟩
    · exact ⟨by decide, by decide⟩
    · exact ⟨by decide, by decide⟩
    · rw [List.mem_map] at hu
      obtain ⟨c, hc, rfl⟩ := hu
      exact ((hrows cs hcs).2.2 c hc).2 b hb
  have hrect : Rect ((labelCells a) :: (List.range a.n).map (rowCells fmtD a)) a.cols.length := by
    intro cs hcs
    rw [List.mem_cons, List.mem_map] at hcs
    rcases hcs with rfl | ⟨r, hr, rfl⟩
    · simp [labelCells]
    · simp [rowCells]
  have hp := c26_table_partial dbl _ a.cols.length _ htab hrect hbytes
  generalize htxt : (((labelCells a) :: (List.range a.n).map (rowCells fmtD a)).map
      (fun cs => joinNl (cs.map Cell.bytes))).flatten = txt at hlen hp
  have hr := dfReadAll_eq txt [] 0 (by omega) (by decide) (by simpa using hlen)
  simp only [Int.pow_zero, Int.mul_one, List.nil_append] at hr
  obtain ⟨df1, k1, k2⟩ := csvAddColumns_eq ((labelCells a).map (Cell.field dbl)) (a.cols.map (fun x => x.1.loaded))
    a.loaded.cols (by simp [ATab.loaded]) (by simp [labelCells, ATab.loaded, Cell.field]) _ 0 dfAlloc rfl (by omega)
    (by simpa [ATab.empty] using dfRep_empty)
  obtain ⟨df2, k3, k4⟩ := csvFill_eq h hs _ 0 df1 rfl (by omega) (by
    refine k2.congr rfl rfl ?_
    intro r c hr hc
    exact absurd hr (by simp))
  refine ⟨df2, ?_, k4⟩
  unfold dfLoadCsv
  rw [hr]
  simp only [Res.ok_bind]
  rw [hp]
  simp only [Res.ok_bind]
  change (csvToDf atof (savedRecords fmtD dbl a) a.cols.length >>= fun df => _) = _
  have e : csvToDf atof (savedRecords fmtD dbl a) a.cols.length = .ok df2 := by
    unfold csvToDf
    rw [if_neg (by simp [savedRecords, hncols]), savedTypes h hs]
    simp only [Res.ok_bind]
    rw [readAt_get (x := (labelCells a).map (Cell.field dbl)) (by simp [savedRecords])]
    simp only [Res.ok_bind]
    have el : a.loaded.cols.length = a.cols.length := by simp [ATab.loaded]
    rw [el] at k1
    rw [k1]
    simp only [Res.ok_bind]
    rw [savedRecords_tail, List.range_eq_range']
    exact k3
  rw [e]
  rfl

theorem labels_of_rep {df a} (h : DfRep df a) : df.cols.map DCol.label = a.cols.map Prod.snd := by
  apply List.ext_getElem (by simp [h.len])
  intro i h1 h2
  simp only [List.length_map] at h1 h2
  obtain ⟨tl, e1, e2⟩ := h.col i df.cols[i] (by simp [h1])
  rw [List.getElem?_eq_getElem h2] at e1
  cases e1
  rw [List.getElem_map, List.getElem_map, ← e2.head]

/-- C32, for tables that can be written (`Savable`): a data frame made by any history of
calls is written and read back as a frame with the same labels, the same number of rows
and the same cells; factor columns come back as string columns with the same texts. Any
further calls on the frame that was read return what they return on that table.

Missing: the property fails for the other frames, see the theorems below. Files of 1 GB
and more overflow the size of the buffer of the loader. -/
theorem c32_round_trip_partial (fmtD : UInt64 → Bytes) (dbl : Bytes → Bool) (atof : Bytes → UInt64)
    (ops : List DfOp) (df : DFrame) (a : ATab) (obs : List DfObs) (hm : dfRun fmtD dfAlloc ops = .ok (df, obs))
    (ha : ATab.empty.run fmtD ops = .ok (a, obs)) (hs : Savable fmtD dbl atof a) :
    ∃ txt, dfSaveCsv fmtD df = .ok txt ∧ (txt.length ≤ 1073741821 →
      ∃ df', dfLoadCsv fmtD dbl atof txt false = .ok df' ∧ df'.nRows = df.nRows ∧
        df'.cols.map DCol.label = df.cols.map DCol.label ∧
        ∀ ops2, (do let x ← dfRun fmtD df' ops2; pure x.2 : Res (List DfObs)) =
          (do let x ← a.loaded.run fmtD ops2; pure x.2 : Res (List DfObs))) := by
  obtain ⟨a', h1, h2⟩ := dfRun_ok fmtD hm
  rw [ha] at h1
  cases h1
  obtain ⟨txt, k1, k2⟩ := loadCsv_savable h2 hs
  refine ⟨txt, k1, fun hl => ?_⟩
  obtain ⟨df', k3, k4⟩ := k2 hl
  refine ⟨df', k3, by rw [k4.n, h2.n]; rfl, ?_, ?_⟩
  · rw [labels_of_rep k4, labels_of_rep h2]
    simp [ATab.loaded, Function.comp_def]
  · intro ops2
    have := dfRun_agree fmtD ops2 k4
    cases hx : a.loaded.run fmtD ops2 with
    | ok x =>
      rw [hx] at this
      obtain ⟨df'', k1, _⟩ := this
      rw [k1]; rfl
    | fatal => rw [hx] at this; simp only at this; rw [this]; rfl
    | ub => rw [hx] at this; simp only at this; rw [this]; rfl

/-- A conversion of two `double`s as the C library does it: 1.0 and 0.5. -/
def fmtTwo (d : UInt64) : Bytes := if d = 0x3FF0000000000000 then bytesOf "1" else bytesOf "0.5"

/-- Writing a frame and reading it back, from a history. -/
def reload (ops : List DfOp) : Res DFrame := do
  let x ← dfRun fmtTwo dfAlloc ops
  let t ← dfSaveCsv fmtTwo x.1
  dfLoadCsv fmtTwo (fun s => s = bytesOf "0.5") (fun _ => 0x3FE0000000000000) t false

/-- A frame with four kinds of columns, missing cells, quotes and newlines comes back. -/
example : reload [.addColumn .string (bytesOf "s"), .addColumn .int (bytesOf "i"), .addColumn .double (bytesOf "d"),
      .addColumn .bool (bytesOf "b c"), .appendRow [.str (bytesOf "a\"b\n,"), .int (-5), .dbl 0x3FE0000000000000, .int 1],
      .addRow, .appendRow [.str [], .int 7, .dbl 0x3FE0000000000000, .int 0]] =
    (do let x ← dfRun fmtTwo dfAlloc [.addColumn .string (bytesOf "s"), .addColumn .int (bytesOf "i"),
          .addColumn .double (bytesOf "d"), .addColumn .bool (bytesOf "b c"),
          .appendRow [.str (bytesOf "a\"b\n,"), .int (-5), .dbl 0x3FE0000000000000, .int 1],
          .addRow, .appendRow [.str [], .int 7, .dbl 0x3FE0000000000000, .int 0]]
        pure x.1) := by decide +kernel

/-- A table that can be written. -/
example : Savable fmtTwo (fun _ => true) (fun _ => 0) {
    cols := [(.factor, bytesOf "f"), (.int, bytesOf "i")]
    n := 2
    cell := fun r c => if c = 0 then (if r = 0 then some (.fac (bytesOf "a\"b")) else none) else some (.int r) } := by
  refine ⟨by decide, by decide, ?_, ?_, ?_, ?_, ?_⟩
  · unfold LabelByte TextByte
    decide +kernel
  · intro r c v hr hc hv
    simp only at hv hr
    split at hv
    · split at hv
      · cases hv
        simp only [AVal.Ok, TextByte]
        decide +kernel
      · cases hv
    · cases hv
      simp only [AVal.Ok]
      unfold InI32
      omega
  · intro h; simp at h
  · intro c l h
    refine ⟨0, by decide, ?_⟩
    simp only
    split <;> simp
  · intro c l h
    match c, h with
    | 0, h => simp at h
    | 1, h => simp at h
    | n + 2, h => simp at h

/-- C32 is false: a label with a quote is written with a backslash, which the reader
rejects. -/
theorem c32_label_quote : ∃ ops df obs, dfRun fmtTwo dfAlloc ops = .ok (df, obs) ∧ reload ops = .fatal :=
  ⟨[.addColumn .string (bytesOf "a\"b")], { nRows := 0, cols := [dcNew .string (bytesOf "a\"b") 0] }, [.nothing],
    by decide +kernel, by decide +kernel⟩

/-- C32 is false: a label with a backslash comes back as another label. -/
theorem c32_label_backslash : ∃ ops, (do let df ← reload ops; pure (df.cols.map DCol.label) : Res (List Bytes)) =
    .ok [bytesOf "a\\\\b"] ∧ ops = [.addColumn .string (bytesOf "a\\b")] :=
  ⟨_, by decide +kernel, rfl⟩

/-- C32 is false: a column of `double` that holds the value 1.0 comes back as a column of
`int`, in which no `double` can be read. -/
theorem c32_integral_double : ∃ df, reload [.addColumn .double (bytesOf "x"), .appendRow [.dbl 0x3FF0000000000000]] = .ok df ∧
    df.cols.map DCol.type = [.int] ∧ dfGetDouble df 0 0 = .fatal :=
  ⟨{ nRows := 1, cols := [⟨.int, bytesOf "x", [some (.int 1)], []⟩] }, by decide +kernel, by decide +kernel,
    by decide +kernel⟩

/-- C32 is false: an integer column without any value comes back as a string column. -/
theorem c32_all_missing : ∃ df, reload [.addColumn .int (bytesOf "x"), .addColumn .string (bytesOf "y"), .addRow] = .ok df ∧
    df.cols.map DCol.type = [.string, .string] :=
  ⟨{ nRows := 1, cols := [⟨.string, bytesOf "x", [none], []⟩, ⟨.string, bytesOf "y", [none], []⟩] },
    by decide +kernel, by decide +kernel⟩

/-- C32 is false: a missing cell of a table of one column is an empty line, which the
reader rejects. -/
theorem c32_single_missing : ∃ ops df obs, dfRun fmtTwo dfAlloc ops = .ok (df, obs) ∧ reload ops = .fatal :=
  ⟨[.addColumn .string (bytesOf "x"), .addRow], { nRows := 1, cols := [⟨.string, bytesOf "x", [none], []⟩] },
    [.nothing, .row 0], by decide +kernel, by decide +kernel⟩

/-- C32 is false: a frame without columns is an empty file, which the reader rejects. -/
theorem c32_no_columns : reload [] = .fatal := by decide +kernel

/-! ## C33 -/

theorem dfFactorsStep_rep (fmtD : UInt64 → Bytes) {df a} (h : DfRep df a) (hc : a.cols ≠ []) :
    ∃ df' a', dfFactorsStep fmtD df 0 = .ok df' ∧ DfRep df' a' ∧ a'.cols ≠ [] ∧
      a'.cols[0]?.map Prod.fst ≠ some .string := by
  have hl : 0 < a.cols.length := List.length_pos_iff.2 hc
  obtain ⟨dc, q1, q2, q3⟩ := dfColumn_eq h (c := 0) (t := a.cols[0].1) (l := a.cols[0].2) (List.getElem?_eq_getElem hl)
  unfold dfFactorsStep
  simp only [Int.natCast_zero] at q1
  rw [q1]
  simp only [Res.ok_bind, q2]
  by_cases ht : a.cols[0].1 = .string
  · rw [if_pos ht]
    obtain ⟨df', k1, k2⟩ := (dfMakeFactor_eq fmtD h 0).1 ⟨by omega, by omega⟩
    refine ⟨df', _, k1, k2, ?_, ?_⟩
    · simp [hc]
    · simp [hl]
  · rw [if_neg ht]
    refine ⟨df, a, rfl, h, hc, ?_⟩
    rw [List.getElem?_eq_getElem hl]
    simpa using ht

theorem dfFactorsLoop_ub (fmtD : UInt64 → Bytes) : ∀ (k : Nat) (i : Int) (df : DFrame) (a : ATab),
    (2147483647 - i).toNat = k → DfRep df a → a.cols ≠ [] → dfFactorsLoop fmtD 0 i df = .ub := by
  intro k
  induction k with
  | zero =>
    intro i df a hk h hc
    obtain ⟨df', a', k1, k2, k3, _⟩ := dfFactorsStep_rep fmtD h hc
    have hl : 0 < a.cols.length := List.length_pos_iff.2 hc
    rw [dfFactorsLoop, if_pos (by rw [h.len]; omega), k1]
    simp only [Res.ok_bind]
    rw [dif_neg (by omega)]
  | succ k ih =>
    intro i df a hk h hc
    obtain ⟨df', a', k1, k2, k3, _⟩ := dfFactorsStep_rep fmtD h hc
    have hl : 0 < a.cols.length := List.length_pos_iff.2 hc
    rw [dfFactorsLoop, if_pos (by rw [h.len]; omega), k1]
    simp only [Res.ok_bind]
    rw [dif_pos (by omega)]
    exact ih (i + 1) df' a' (by omega) k2 k3

theorem csvSetCell_rep {atof} {df df' : DFrame} {b : ATab} (h : DfRep df b) {r c : Int} {f : CField}
    (hx : csvSetCell atof df r c f = .ok df') : ∃ b', DfRep df' b' ∧ b'.cols = b.cols := by
  have set : ∀ {v : AVal}, dfSetVal df r c v = .ok df' → ∃ b', DfRep df' b' ∧ b'.cols = b.cols := by
    intro v hv
    obtain ⟨h1, h2⟩ := dfSetVal_eq h r c v
    by_cases hh : b.Has r c ∧ b.cols[c.toNat]?.map Prod.fst = some v.type
    · obtain ⟨d, k1, k2⟩ := h1 hh
      rw [hv] at k1
      cases k1
      exact ⟨_, k2, rfl⟩
    · rw [h2 hh] at hv; cases hv
  unfold csvSetCell at hx
  split at hx
  · obtain ⟨h1, h2⟩ := dfSetNa_eq h r c
    by_cases hh : b.Has r c
    · obtain ⟨d, k1, k2⟩ := h1 hh
      rw [hx] at k1
      cases k1
      exact ⟨_, k2, rfl⟩
    · rw [h2 hh] at hx; cases hx
  · rename_i t _
    rw [Res.bind_eq_ok] at hx
    obtain ⟨dc, _, hx⟩ := hx
    split at hx
    · exact set (v := .str t) hx
    · exact set (v := .bool _) hx
    · exact set (v := .dbl _) hx
    · rw [Res.bind_eq_ok] at hx
      obtain ⟨v, _, hx⟩ := hx
      exact set (v := .int v) hx
    · exact set (v := .fac t) hx

theorem csvFillRow_rep {atof} {rec : List CField} {r : Int} {nc : Nat} : ∀ (k c : Nat) (df df' : DFrame) (b : ATab),
    nc - c = k → DfRep df b → csvFillRow atof rec r nc c df = .ok df' → ∃ b', DfRep df' b' ∧ b'.cols = b.cols := by
  intro k
  induction k with
  | zero =>
    intro c df df' b hk h hx
    rw [csvFillRow, if_neg (by omega)] at hx
    cases hx
    exact ⟨b, h, rfl⟩
  | succ k ih =>
    intro c df df' b hk h hx
    rw [csvFillRow, if_pos (by omega), Res.bind_eq_ok] at hx
    obtain ⟨f, _, hx⟩ := hx
    rw [Res.bind_eq_ok] at hx
    obtain ⟨df1, e1, hx⟩ := hx
    obtain ⟨b1, g1, g2⟩ := csvSetCell_rep h e1
    obtain ⟨b2, g3, g4⟩ := ih (c + 1) df1 df' b1 (by omega) g1 hx
    exact ⟨b2, g3, by rw [g4, g2]⟩

theorem csvFill_rep {atof} {nc : Nat} : ∀ (recs : List (List CField)) (df df' : DFrame) (b : ATab),
    DfRep df b → csvFill atof nc recs df = .ok df' → ∃ b', DfRep df' b' ∧ b'.cols = b.cols
  | [], df, df', b, h, hx => by cases hx; exact ⟨b, h, rfl⟩
  | rec :: recs, df, df', b, h, hx => by
    rw [csvFill, Res.bind_eq_ok] at hx
    obtain ⟨x, e1, hx⟩ := hx
    rw [Res.bind_eq_ok] at hx
    obtain ⟨df1, e2, hx⟩ := hx
    have h1 := dfAddRow_eq h
    cases ha : b.addRow with
    | ok b1 =>
      rw [ha] at h1
      obtain ⟨d, k1, k2⟩ := h1
      rw [e1] at k1
      cases k1
      obtain ⟨b2, g1, g2⟩ := csvFillRow_rep _ 0 _ _ _ rfl k2 e2
      obtain ⟨b3, g3, g4⟩ := csvFill_rep recs df1 df' b2 g1 hx
      refine ⟨b3, g3, ?_⟩
      rw [g4, g2]
      unfold ATab.addRow at ha
      split at ha
      · cases ha; rfl
      · split at ha <;> cases ha
    | fatal => rw [ha] at h1; simp only at h1; rw [e1] at h1; cases h1
    | ub => rw [ha] at h1; simp only at h1; rw [e1] at h1; cases h1

theorem csvAddColumns_rep {labels : List CField} {types : List DCT} {nc : Nat} : ∀ (k i : Nat) (df df' : DFrame) (b : ATab),
    nc - i = k → DfRep df b → csvAddColumns labels types nc i df = .ok df' →
    ∃ b', DfRep df' b' ∧ b'.cols.length = b.cols.length + k := by
  intro k
  induction k with
  | zero =>
    intro i df df' b hk h hx
    rw [csvAddColumns, if_neg (by omega)] at hx
    cases hx
    exact ⟨b, h, rfl⟩
  | succ k ih =>
    intro i df df' b hk h hx
    rw [csvAddColumns, if_pos (by omega), Res.bind_eq_ok] at hx
    obtain ⟨f, _, hx⟩ := hx
    rw [Res.bind_eq_ok] at hx
    obtain ⟨t, _, hx⟩ := hx
    obtain ⟨b', g1, g2⟩ := ih (i + 1) _ df' _ (by omega) (dfAddColumn_rep h t _) hx
    refine ⟨b', g1, ?_⟩
    rw [g2]
    simp
    omega

theorem csvToDf_rep {atof recs nc df} (hx : csvToDf atof recs nc = .ok df) : ∃ a, DfRep df a ∧ a.cols ≠ [] := by
  unfold csvToDf at hx
  split at hx
  · cases hx
  · rename_i hc
    rw [Res.bind_eq_ok] at hx
    obtain ⟨types, _, hx⟩ := hx
    rw [Res.bind_eq_ok] at hx
    obtain ⟨labels, _, hx⟩ := hx
    rw [Res.bind_eq_ok] at hx
    obtain ⟨df1, e1, hx⟩ := hx
    obtain ⟨b1, g1, g2⟩ := csvAddColumns_rep _ 0 _ _ _ rfl dfRep_empty e1
    obtain ⟨b2, g3, g4⟩ := csvFill_rep _ _ _ _ g1 hx
    refine ⟨b2, g3, ?_⟩
    rw [g4, ← List.length_pos_iff, g2]
    omega

/-- C33 is false for every file: when the file can be read, converting its columns never
ends. The loop increments the wrong variable; what stops it is the overflow of that
variable, which is undefined. -/
theorem c33_never_returns (fmtD : UInt64 → Bytes) (dbl : Bytes → Bool) (atof : Bytes → UInt64) (inp : Bytes) (df : DFrame)
    (h : dfLoadCsv fmtD dbl atof inp false = .ok df) : dfLoadCsv fmtD dbl atof inp true = .ub := by
  unfold dfLoadCsv at h ⊢
  rw [Res.bind_eq_ok] at h
  obtain ⟨text, e1, h⟩ := h
  rw [Res.bind_eq_ok] at h
  obtain ⟨p, e2, h⟩ := h
  rw [Res.bind_eq_ok] at h
  obtain ⟨df1, e3, h⟩ := h
  rw [e1]
  simp only [Res.ok_bind]
  rw [e2]
  simp only [Res.ok_bind]
  rw [e3]
  simp only [Res.ok_bind, if_true]
  obtain ⟨a, h1, h2⟩ := csvToDf_rep e3
  exact dfFactorsLoop_ub fmtD _ _ df1 a rfl h1 h2

/-- C33 is false: the call returns for no file at all. -/
theorem c33_no_result (fmtD : UInt64 → Bytes) (dbl : Bytes → Bool) (atof : Bytes → UInt64) (inp : Bytes) (df : DFrame) :
    dfLoadCsv fmtD dbl atof inp true ≠ .ok df := by
  intro h
  have h0 := h
  unfold dfLoadCsv at h
  rw [Res.bind_eq_ok] at h
  obtain ⟨text, e1, h⟩ := h
  rw [Res.bind_eq_ok] at h
  obtain ⟨p, e2, h⟩ := h
  rw [Res.bind_eq_ok] at h
  obtain ⟨df1, e3, h⟩ := h
  have h1 : dfLoadCsv fmtD dbl atof inp false = .ok df1 := by
    unfold dfLoadCsv
    rw [e1]
    simp only [Res.ok_bind]
    rw [e2]
    simp only [Res.ok_bind]
    rw [e3]
    rfl
  rw [c33_never_returns fmtD dbl atof inp df1 h1] at h0
  cases h0

/-- The loop changes nothing after its first round: it works on the first column only. -/
theorem c33_stuck (fmtD : UInt64 → Bytes) (df df1 : DFrame) (a : ATab) (hr : DfRep df a) (hc : a.cols ≠ [])
    (h : dfFactorsStep fmtD df 0 = .ok df1) : dfFactorsStep fmtD df1 0 = .ok df1 := by
  obtain ⟨df', a', k1, k2, k3, k4⟩ := dfFactorsStep_rep fmtD hr hc
  rw [h] at k1
  cases k1
  have hl : 0 < a'.cols.length := List.length_pos_iff.2 k3
  obtain ⟨dc, q1, q2, _⟩ := dfColumn_eq k2 (c := 0) (t := a'.cols[0].1) (l := a'.cols[0].2) (List.getElem?_eq_getElem hl)
  simp only [Int.natCast_zero] at q1
  unfold dfFactorsStep
  rw [q1]
  simp only [Res.ok_bind, q2]
  rw [if_neg]
  · rfl
  · intro e
    apply k4
    rw [List.getElem?_eq_getElem hl, ← e]
    rfl

/-- The part of C33 that holds: reading the file of less than 1 GB into memory ends, and
never writes outside of the buffer. -/
theorem c33_read_partial (inp : Bytes) (h : inp.length ≤ 1073741821) : dfReadAll 1024 [] inp = .ok inp := by
  have hr := dfReadAll_eq inp [] 0 (by omega) (by decide) (by simpa using h)
  simpa using hr

/-- A file that can be read. -/
example : dfLoadCsv fmtTwo (fun _ => false) (fun _ => 0) (bytesOf "a,b\nx,1\n,2\n") false =
    .ok { nRows := 2, cols := [⟨.string, bytesOf "a", [some (.str (bytesOf "x")), none], []⟩,
      ⟨.int, bytesOf "b", [some (.int 1), some (.int 2)], []⟩] } := by decide +kernel

end Nx
