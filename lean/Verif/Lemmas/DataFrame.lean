import Verif.Spec.DataFrame

/-!
# Lemmas about data frames: the model represents the table
-/

namespace Nx

/-- A stored cell stands for a value. -/
def Decodes (t : DCT) (lv : List Bytes) : Option DVal → Option AVal → Prop
  | none, none => True
  | some (.str s), some (.str s') => t = .string ∧ s = s'
  | some (.int v), some (.int v') => t = .int ∧ v = v'
  | some (.dbl v), some (.dbl v') => t = .double ∧ v = v'
  | some (.bool v), some (.bool v') => t = .bool ∧ v = v'
  | some (.int v), some (.fac l) => t = .factor ∧ 0 ≤ v ∧ lv[v.toNat]? = some l
  | _, _ => False

/-- A column represents a type, a label and a function from rows to values. -/
structure ColRep (dc : DCol) (tl : DCT × Bytes) (n : Nat) (cell : Nat → Option AVal) : Prop where
  head : (dc.type, dc.label) = tl
  len : dc.elems.length = n
  nodup : dc.levels.Nodup
  cells : ∀ r, r < n → ∃ e, dc.elems[r]? = some e ∧ Decodes dc.type dc.levels e (cell r)

/-- A frame represents a table. -/
structure DfRep (df : DFrame) (a : ATab) : Prop where
  n : df.nRows = a.n
  len : df.cols.length = a.cols.length
  col : ∀ (c : Nat) (dc : DCol), df.cols[c]? = some dc →
    ∃ tl, a.cols[c]? = some tl ∧ ColRep dc tl a.n (fun r => a.cell r c)

theorem DfRep.get {df a} (h : DfRep df a) {c : Nat} (hc : c < a.cols.length) :
    ∃ dc tl, df.cols[c]? = some dc ∧ a.cols[c]? = some tl ∧ ColRep dc tl a.n (fun r => a.cell r c) := by
  have hc' : c < df.cols.length := by rw [h.len]; exact hc
  obtain ⟨tl, e1, e2⟩ := h.col c df.cols[c] (by simp)
  exact ⟨df.cols[c], tl, by simp, e1, e2⟩

theorem readAt_get {α : Type} {l : List α} {i : Nat} {x : α} (h : l[i]? = some x) : readAt l i = .ok x := by
  unfold readAt; rw [h]

theorem lt_of_get {α : Type} {l : List α} {i : Nat} {x : α} (h : l[i]? = some x) : i < l.length := by
  apply Nat.lt_of_not_le
  intro hle
  rw [List.getElem?_eq_none hle] at h
  cases h

/-- The index checks. -/
theorem dfCheck_eq {df a} (h : DfRep df a) (r c : Int) :
    dfCheck df r c = if a.Has r c then .ok () else .fatal := by
  unfold dfCheck assertIndex
  rw [h.n, h.len]
  by_cases h1 : 0 ≤ r ∧ r ≤ (a.n : Int) - 1
  · rw [if_pos h1]
    simp only [Res.ok_bind]
    by_cases h2 : 0 ≤ c ∧ c ≤ (a.cols.length : Int) - 1
    · rw [if_pos h2, if_pos (by omega)]
    · rw [if_neg h2, if_neg (by omega)]
  · have : ¬ a.Has r c := by unfold ATab.Has; omega
    rw [if_neg h1, if_neg this]
    rfl

theorem dfElem_ok {df a} (h : DfRep df a) {r c : Int} (hh : a.Has r c) :
    ∃ dc tl e, df.cols[c.toNat]? = some dc ∧ a.cols[c.toNat]? = some tl ∧
      ColRep dc tl a.n (fun r => a.cell r c.toNat) ∧ dc.elems[r.toNat]? = some e ∧
      Decodes dc.type dc.levels e (a.cell r.toNat c.toNat) ∧ dfElem df r c = .ok (dc, e) := by
  obtain ⟨h1, h2, h3, h4⟩ := hh
  obtain ⟨dc, tl, e1, e2, e3⟩ := h.get (c := c.toNat) (by omega)
  obtain ⟨e, f1, f2⟩ := e3.cells r.toNat (by omega)
  refine ⟨dc, tl, e, e1, e2, e3, f1, f2, ?_⟩
  unfold dfElem
  rw [readAt_get e1]
  simp only [Res.ok_bind]
  rw [readAt_get f1]
  rfl

theorem Decodes.mono {t lv lv' e v} (h : Decodes t lv e v) (hp : lv <+: lv') : Decodes t lv' e v := by
  unfold Decodes at h ⊢
  split at h <;> simp_all
  obtain ⟨x, rfl⟩ := hp
  rw [List.getElem?_append_left (lt_of_get h.2.2)]
  exact h.2.2

/-- Replacing one cell. -/
theorem dfPut_rep {df a} (h : DfRep df a) {r c : Nat} {dc dc' : DCol} {tl} (hc : df.cols[c]? = some dc)
    (htl : a.cols[c]? = some tl) (hr : r < a.n) {e : Option DVal} {v : Option AVal}
    (hd : dc'.type = dc.type) (hl : dc'.label = dc.label) (he : dc'.elems = dc.elems)
    (hp : dc.levels <+: dc'.levels) (hn : dc'.levels.Nodup) (hv : Decodes dc.type dc'.levels e v)
    (ri ci : Int) (hri : ri.toNat = r) (hci : ci.toNat = c) :
    ∃ df', dfPut df dc' ri ci e = .ok df' ∧ DfRep df' (a.update r c v) := by
  obtain ⟨tl', q1, q2⟩ := h.col c dc hc
  rw [htl] at q1
  cases q1
  have hlen : r < dc'.elems.length := by rw [he, q2.len]; exact hr
  have hclen := lt_of_get hc
  unfold dfPut
  rw [hri, hci, writeAt_ok _ hlen]
  simp only [Res.ok_bind]
  rw [writeAt_ok _ hclen]
  refine ⟨_, rfl, ?_⟩
  refine ⟨h.n, by simpa [ATab.update] using h.len, ?_⟩
  intro c' d hd'
  simp only at hd'
  by_cases hcc : c = c'
  · subst hcc
    rw [List.getElem?_set_self hclen] at hd'
    cases hd'
    refine ⟨tl, htl, ?_⟩
    refine ⟨by simpa [hd, hl] using q2.head, by simp [he, q2.len, ATab.update], hn, ?_⟩
    intro r' hr'
    simp only [ATab.update]
    by_cases hrr : r' = r
    · subst hrr
      refine ⟨e, by rw [List.getElem?_set_self hlen], ?_⟩
      rw [if_pos ⟨rfl, trivial⟩, hd]
      exact hv
    · obtain ⟨e', f1, f2⟩ := q2.cells r' hr'
      refine ⟨e', by rw [List.getElem?_set_ne (by omega), he]; exact f1, ?_⟩
      rw [if_neg (by omega), hd]
      exact f2.mono hp
  · rw [List.getElem?_set_ne hcc] at hd'
    obtain ⟨t2, g1, g2⟩ := h.col c' d hd'
    refine ⟨t2, g1, g2.head, g2.len, g2.nodup, ?_⟩
    intro r' hr'
    obtain ⟨e', f1, f2⟩ := g2.cells r' hr'
    refine ⟨e', f1, ?_⟩
    simp only [ATab.update]
    rw [if_neg (by omega)]
    exact f2

theorem dfSetNa_eq {df a} (h : DfRep df a) (r c : Int) :
    (a.Has r c → ∃ df', dfSetNa df r c = .ok df' ∧ DfRep df' (a.update r.toNat c.toNat none)) ∧
    (¬ a.Has r c → dfSetNa df r c = .fatal) := by
  unfold dfSetNa
  rw [dfCheck_eq h]
  constructor
  · intro hh
    rw [if_pos hh]
    simp only [Res.ok_bind]
    obtain ⟨dc, tl, e, e1, e2, e3, e4, e5, e6⟩ := dfElem_ok h hh
    rw [e6]
    simp only [Res.ok_bind]
    exact dfPut_rep h e1 e2 (by have := hh.1; have := hh.2.1; omega) rfl rfl rfl (List.prefix_refl _) e3.nodup
      (by simp [Decodes]) r c rfl rfl
  · intro hh
    rw [if_neg hh]; rfl

theorem typeAt_eq {df a} (h : DfRep df a) {c : Nat} {dc} (hc : df.cols[c]? = some dc) :
    a.cols[c]?.map Prod.fst = some dc.type := by
  obtain ⟨tl, e1, e2⟩ := h.col c dc hc
  rw [e1, ← e2.head]
  rfl

theorem dfSet_eq {df a} (h : DfRep df a) (r c : Int) (t : DCT) (x : DVal) (v : AVal)
    (hx : ∀ lv, Decodes t lv (some x) (some v)) :
    (a.Has r c ∧ a.cols[c.toNat]?.map Prod.fst = some t →
      ∃ df', dfSet df t r c x = .ok df' ∧ DfRep df' (a.update r.toNat c.toNat (some v))) ∧
    (¬ (a.Has r c ∧ a.cols[c.toNat]?.map Prod.fst = some t) → dfSet df t r c x = .fatal) := by
  unfold dfSet
  rw [dfCheck_eq h]
  by_cases hh : a.Has r c
  · rw [if_pos hh]
    simp only [Res.ok_bind]
    obtain ⟨dc, tl, e, e1, e2, e3, e4, e5, e6⟩ := dfElem_ok h hh
    rw [e6]
    simp only [Res.ok_bind]
    have ht := typeAt_eq h e1
    constructor
    · rintro ⟨_, hty⟩
      rw [ht] at hty
      cases hty
      rw [if_neg (by simp)]
      exact dfPut_rep h e1 e2 (by have := hh.1; have := hh.2.1; omega) rfl rfl rfl (List.prefix_refl _) e3.nodup
        (hx _) r c rfl rfl
    · intro hne
      rw [if_pos]
      intro e
      exact hne ⟨hh, by rw [ht, e]⟩
  · rw [if_neg hh]
    exact ⟨fun x => absurd x.1 hh, fun _ => rfl⟩

theorem valueToFactor_spec {lv : List Bytes} (hn : lv.Nodup) (s : Bytes) :
    lv <+: (valueToFactor lv s).1 ∧ (valueToFactor lv s).1.Nodup ∧ 0 ≤ (valueToFactor lv s).2 ∧
      (valueToFactor lv s).1[(valueToFactor lv s).2.toNat]? = some s := by
  unfold valueToFactor
  cases hx : lv.idxOf? s with
  | none =>
    simp only
    rw [List.idxOf?_eq_none_iff] at hx
    refine ⟨List.prefix_append _ _, ?_, by omega, by simp⟩
    rw [List.nodup_append]
    refine ⟨hn, by simp, ?_⟩
    intro a ha b hb
    simp at hb
    subst hb
    intro e
    subst e
    exact hx ha
  | some i =>
    simp only
    refine ⟨List.prefix_refl _, hn, by omega, ?_⟩
    unfold List.idxOf? at hx
    rw [List.findIdx?_eq_some_iff_getElem] at hx
    obtain ⟨h1, h2, _⟩ := hx
    have h2 : lv[i] = s := by simpa using h2
    simp only [Int.toNat_natCast]
    rw [List.getElem?_eq_getElem h1, h2]

theorem dfSetFactor_eq {df a} (h : DfRep df a) (r c : Int) (s : Bytes) :
    (a.Has r c ∧ a.cols[c.toNat]?.map Prod.fst = some .factor →
      ∃ df', dfSetFactor df r c s = .ok df' ∧ DfRep df' (a.update r.toNat c.toNat (some (.fac s)))) ∧
    (¬ (a.Has r c ∧ a.cols[c.toNat]?.map Prod.fst = some .factor) → dfSetFactor df r c s = .fatal) := by
  unfold dfSetFactor
  rw [dfCheck_eq h]
  by_cases hh : a.Has r c
  · rw [if_pos hh]
    simp only [Res.ok_bind]
    obtain ⟨dc, tl, e, e1, e2, e3, e4, e5, e6⟩ := dfElem_ok h hh
    rw [e6]
    simp only [Res.ok_bind]
    have ht := typeAt_eq h e1
    constructor
    · rintro ⟨_, hty⟩
      rw [ht] at hty
      have hty : dc.type = .factor := by simpa using hty
      rw [if_neg (by simpa using hty)]
      obtain ⟨p1, p2, p3, p4⟩ := valueToFactor_spec e3.nodup s
      exact dfPut_rep (dc' := { dc with levels := (valueToFactor dc.levels s).1 }) h e1 e2
        (by have := hh.1; have := hh.2.1; omega) rfl rfl rfl p1 p2
        (show Decodes dc.type (valueToFactor dc.levels s).1 (some (.int (valueToFactor dc.levels s).2))
          (some (.fac s)) from ⟨hty, p3, p4⟩) r c rfl rfl
    · intro hne
      rw [if_pos]
      intro e
      exact hne ⟨hh, by rw [ht, e]⟩
  · rw [if_neg hh]
    exact ⟨fun x => absurd x.1 hh, fun _ => rfl⟩

/-- The setter chosen for a value. -/
def dfSetVal (df : DFrame) (r c : Int) (v : AVal) : Res DFrame :=
  match v with
  | .str s => dfSetString df r c s
  | .int x => dfSetInt df r c x
  | .dbl x => dfSetDouble df r c x
  | .bool x => dfSetBool df r c x
  | .fac s => dfSetFactor df r c s

theorem dfSetVal_eq {df a} (h : DfRep df a) (r c : Int) (v : AVal) :
    (a.Has r c ∧ a.cols[c.toNat]?.map Prod.fst = some v.type →
      ∃ df', dfSetVal df r c v = .ok df' ∧ DfRep df' (a.update r.toNat c.toNat (some v))) ∧
    (¬ (a.Has r c ∧ a.cols[c.toNat]?.map Prod.fst = some v.type) → dfSetVal df r c v = .fatal) := by
  cases v with
  | str s => exact dfSet_eq h r c _ _ _ (fun lv => ⟨rfl, rfl⟩)
  | int s => exact dfSet_eq h r c _ _ _ (fun lv => ⟨rfl, rfl⟩)
  | dbl s => exact dfSet_eq h r c _ _ _ (fun lv => ⟨rfl, rfl⟩)
  | bool s => exact dfSet_eq h r c _ _ _ (fun lv => ⟨rfl, rfl⟩)
  | fac s => exact dfSetFactor_eq h r c s

/-- Reading. -/
theorem dfGet_eq {df a} (h : DfRep df a) (t : DCT) (r c : Int) :
    (a.Has r c ∧ a.cols[c.toNat]?.map Prod.fst = some t →
      ∃ dc, dc.type = t ∧
        match a.cell r.toNat c.toNat with
        | none => dfGet df t r c = .fatal
        | some v => ∃ x, dfGet df t r c = .ok (dc, x) ∧ Decodes t dc.levels (some x) (some v)) ∧
    (¬ (a.Has r c ∧ a.cols[c.toNat]?.map Prod.fst = some t) → dfGet df t r c = .fatal) := by
  unfold dfGet
  rw [dfCheck_eq h]
  by_cases hh : a.Has r c
  · rw [if_pos hh]
    simp only [Res.ok_bind]
    obtain ⟨dc, tl, e, e1, e2, e3, e4, e5, e6⟩ := dfElem_ok h hh
    rw [e6]
    simp only [Res.ok_bind]
    have ht := typeAt_eq h e1
    constructor
    · rintro ⟨_, hty⟩
      rw [ht] at hty
      have hty : dc.type = t := by simpa using hty
      subst hty
      refine ⟨dc, rfl, ?_⟩
      rw [if_neg (by simp)]
      cases e with
      | none =>
        cases hv : a.cell r.toNat c.toNat with
        | none => rfl
        | some v => rw [hv] at e5; simp [Decodes] at e5
      | some x =>
        cases hv : a.cell r.toNat c.toNat with
        | none => rw [hv] at e5; cases x <;> simp [Decodes] at e5
        | some v => rw [hv] at e5; exact ⟨x, rfl, e5⟩
    · intro hne
      rw [if_pos]
      intro e
      exact hne ⟨hh, by rw [ht, e]⟩
  · rw [if_neg hh]
    exact ⟨fun x => absurd x.1 hh, fun _ => rfl⟩

theorem dcAppendRow_rep {dc tl n cell cell'} (h : ColRep dc tl n cell) (hn : n < 2147483647)
    (hc : ∀ r, r < n → cell' r = cell r) (hcn : cell' n = none) :
    ∃ dc', dcAppendRow dc = .ok dc' ∧ ColRep dc' tl (n + 1) cell' := by
  unfold dcAppendRow
  rw [if_pos (by rw [h.len]; omega)]
  refine ⟨_, rfl, h.head, by simp [h.len], h.nodup, ?_⟩
  intro r hr
  by_cases hrn : r = n
  · subst hrn
    refine ⟨none, ?_, ?_⟩
    · simp only [← h.len]; simp
    · rw [hcn]; simp [Decodes]
  · obtain ⟨e, f1, f2⟩ := h.cells r (by omega)
    refine ⟨e, ?_, by rw [hc r (by omega)]; exact f2⟩
    simp only
    rw [List.getElem?_append_left (by rw [h.len]; omega)]
    exact f1

theorem dfAppendRows_ok (n : Nat) (hn : n < 2147483647) : ∀ (cols : List DCol) (F : Nat → (DCT × Bytes) × (Nat → Option AVal)),
    (∀ (c : Nat) (dc : DCol), cols[c]? = some dc → ColRep dc (F c).1 n (F c).2) →
    ∃ cols', dfAppendRows cols = .ok cols' ∧ cols'.length = cols.length ∧
      ∀ (c : Nat) (dc : DCol), cols'[c]? = some dc →
        ColRep dc (F c).1 (n + 1) (fun r => if r = n then none else (F c).2 r)
  | [], _, _ => ⟨[], rfl, rfl, fun c dc h => by simp at h⟩
  | dc :: cs, F, h => by
    have h0 := h 0 dc (by simp)
    obtain ⟨d', k1, k2⟩ := dcAppendRow_rep (cell' := fun r => if r = n then none else (F 0).2 r) h0 hn
      (fun r hr => by rw [if_neg (by omega)]) (by simp)
    obtain ⟨cs', g1, g2, g3⟩ := dfAppendRows_ok n hn cs (fun c => F (c + 1))
      (fun c d hd => h (c + 1) d (by simpa using hd))
    refine ⟨d' :: cs', by rw [dfAppendRows, k1]; simp only [Res.ok_bind]; rw [g1]; rfl, by simp [g2], ?_⟩
    intro c d hd
    cases c with
    | zero => simp at hd; subst hd; exact k2
    | succ c => exact g3 c d (by simpa using hd)

theorem dfAddRow_eq {df a} (h : DfRep df a) :
    match a.addRow with
    | .ok a' => ∃ df', dfAddRow df = .ok (df', a.n) ∧ DfRep df' a'
    | .fatal => dfAddRow df = .fatal
    | .ub => dfAddRow df = .ub := by
  unfold ATab.addRow dfAddRow
  by_cases hn : a.n < 2147483647
  · rw [if_pos hn]
    simp only
    obtain ⟨cols', k1, k2, k3⟩ := dfAppendRows_ok a.n hn df.cols
      (fun c => ((a.cols[c]?).getD (.string, []), fun r => a.cell r c)) (by
        intro c dc hc
        obtain ⟨tl, e1, e2⟩ := h.col c dc hc
        simp only [e1, Option.getD_some]
        exact e2)
    rw [k1]
    simp only [Res.ok_bind]
    rw [if_pos (by rw [h.n]; omega)]
    refine ⟨_, by rw [h.n]; rfl, ?_⟩
    refine ⟨by simp, by simpa [k2] using h.len, ?_⟩
    intro c dc hc
    have hc2 : c < a.cols.length := by
      have := lt_of_get hc
      rw [← h.len, ← k2]; exact this
    refine ⟨a.cols[c], by simp, ?_⟩
    have := k3 c dc hc
    simp only [List.getElem?_eq_getElem hc2, Option.getD_some] at this
    exact this
  · rw [if_neg hn]
    cases hcols : df.cols with
    | nil =>
      have : a.cols = [] := by
        have := h.len; rw [hcols] at this; simp at this
        exact List.length_eq_zero_iff.1 this.symm
      rw [if_pos this]
      simp only [dfAppendRows, Res.ok_bind]
      rw [if_neg (by rw [h.n]; omega)]
    | cons dc cs =>
      have : a.cols ≠ [] := by
        intro e
        have := h.len; rw [hcols, e] at this; simp at this
      rw [if_neg this]
      simp only [dfAppendRows]
      obtain ⟨tl, e1, e2⟩ := h.col 0 dc (by rw [hcols]; simp)
      have : dcAppendRow dc = .fatal := by
        unfold dcAppendRow
        rw [if_neg (by rw [e2.len]; omega)]
      rw [this]
      rfl

theorem dfAddColumn_rep {df a} (h : DfRep df a) (t : DCT) (l : Bytes) :
    DfRep (dfAddColumn df t l) { a with
      cols := a.cols ++ [(t, l)]
      cell := fun r c => if c = a.cols.length then none else a.cell r c } := by
  unfold dfAddColumn
  refine ⟨h.n, by simp [h.len], ?_⟩
  intro c dc hc
  simp only at hc
  by_cases hcl : c < df.cols.length
  · rw [List.getElem?_append_left hcl] at hc
    obtain ⟨tl, e1, e2⟩ := h.col c dc hc
    refine ⟨tl, ?_, e2.head, e2.len, e2.nodup, ?_⟩
    · simp only
      rw [List.getElem?_append_left (lt_of_get e1)]; exact e1
    · intro r hr
      obtain ⟨e, f1, f2⟩ := e2.cells r hr
      refine ⟨e, f1, ?_⟩
      simp only
      rw [if_neg (by have := h.len; omega)]
      exact f2
  · have hcl2 : c = df.cols.length := by
      have := lt_of_get hc
      simp at this
      omega
    subst hcl2
    simp at hc
    subst hc
    refine ⟨(t, l), ?_, ?_⟩
    · simp [h.len]
    · refine ⟨rfl, by simp [dcNew, h.n], by simp [dcNew], ?_⟩
      intro r hr
      refine ⟨none, ?_, ?_⟩
      · simp only [dcNew, h.n, Int.toNat_natCast]
        rw [List.getElem?_replicate, if_pos hr]
      · simp only
        rw [if_pos (by rw [h.len])]
        simp [Decodes]

theorem DfRep.congr {df a a'} (h : DfRep df a) (hc : a'.cols = a.cols) (hn : a'.n = a.n)
    (hcell : ∀ r c, r < a.n → c < a.cols.length → a'.cell r c = a.cell r c) : DfRep df a' := by
  refine ⟨by rw [hn]; exact h.n, by rw [hc]; exact h.len, ?_⟩
  intro c dc hdc
  obtain ⟨tl, e1, e2⟩ := h.col c dc hdc
  refine ⟨tl, by rw [hc]; exact e1, e2.head, by rw [hn]; exact e2.len, e2.nodup, ?_⟩
  intro r hr
  rw [hn] at hr
  obtain ⟨e, f1, f2⟩ := e2.cells r hr
  refine ⟨e, f1, ?_⟩
  simp only [hcell r c hr (lt_of_get e1)]
  exact f2

theorem factorText_eq (fmtD : UInt64 → Bytes) {t lv x v} (h : Decodes t lv (some x) (some v)) (ht : t ≠ .factor) :
    factorText fmtD t x = .ok (v.text fmtD) := by
  unfold Decodes at h
  split at h
  · rename_i h1 h2; cases h1
  · rename_i h1 h2; cases h1; cases h2; obtain ⟨rfl, rfl⟩ := h; rfl
  · rename_i h1 h2; cases h1; cases h2; obtain ⟨rfl, rfl⟩ := h; rfl
  · rename_i h1 h2; cases h1; cases h2; obtain ⟨rfl, rfl⟩ := h; rfl
  · rename_i h1 h2; cases h1; cases h2; obtain ⟨rfl, rfl⟩ := h
    rename_i y
    simp only [factorText, DVal.asBool, AVal.text, Res.ok_bind, Res.pure_eq]
    by_cases hy : y = 0
    · rw [if_neg (by simpa using hy), if_pos hy]; rfl
    · rw [if_pos hy, if_neg hy]; rfl
  · rename_i h1 h2; exact absurd h.1 ht
  · exact absurd h (by simp)

/-- The table while column `c` is converted: rows below `i` are done. -/
def factorStage (fmtD : UInt64 → Bytes) (a : ATab) (c i : Nat) : ATab :=
  { cols := a.cols.mapIdx (fun k x => if (k : Int) = c then (.factor, x.2) else x)
    n := a.n
    cell := fun r k => if k = c then (if r < i then (a.cell r k).map (fun v => .fac (v.text fmtD)) else none)
      else a.cell r k }

theorem mapIdx_type_self {a : ATab} {c : Nat} (hc : c < a.cols.length) :
    (a.cols.mapIdx (fun (k : Nat) x => if (k : Int) = c then ((.factor, x.2) : DCT × Bytes) else x))[c]?.map Prod.fst
      = some .factor := by
  rw [List.getElem?_mapIdx, List.getElem?_eq_getElem hc]
  simp

theorem dfMakeFactorLoop_eq (fmtD : UInt64 → Bytes) (a : ATab) (c : Int) {dc tl} (h0 : 0 ≤ c)
    (hc : c.toNat < a.cols.length) (hcol : ColRep dc tl a.n (fun r => a.cell r c.toNat)) (ht : dc.type ≠ .factor) :
    ∀ (k i : Nat) (df : DFrame), a.n - i = k → i ≤ a.n → DfRep df (factorStage fmtD a c.toNat i) →
    ∃ df', dfMakeFactorLoop fmtD dc c a.n i df = .ok df' ∧ DfRep df' (factorStage fmtD a c.toNat a.n) := by
  intro k
  induction k with
  | zero =>
    intro i df hk hi h
    rw [dfMakeFactorLoop, if_neg (by omega)]
    have : i = a.n := by omega
    subst this
    exact ⟨df, rfl, h⟩
  | succ k ih =>
    intro i df hk hi h
    rw [dfMakeFactorLoop, if_pos (by omega)]
    obtain ⟨e, f1, f2⟩ := hcol.cells i (by omega)
    rw [readAt_get f1]
    simp only [Res.ok_bind]
    cases e with
    | none =>
      simp only
      apply ih (i + 1) df (by omega) (by omega)
      refine h.congr rfl rfl ?_
      intro r k' _ _
      simp only [factorStage]
      by_cases hk' : k' = c.toNat
      · subst hk'
        rw [if_pos rfl, if_pos rfl]
        by_cases hr : r = i
        · subst hr
          rw [if_pos (by omega), if_neg (by omega)]
          cases hv : a.cell r c.toNat with
          | none => rfl
          | some v => rw [hv] at f2; simp [Decodes] at f2
        · by_cases hri : r < i
          · rw [if_pos (by omega), if_pos hri]
          · rw [if_neg (by omega), if_neg hri]
      · rw [if_neg hk', if_neg hk']
    | some x =>
      simp only
      cases hv : a.cell i c.toNat with
      | none => simp only [hv] at f2; cases x <;> simp [Decodes] at f2
      | some v =>
        simp only [hv] at f2
        rw [factorText_eq fmtD f2 ht]
        simp only [Res.ok_bind]
        have hHas : (factorStage fmtD a c.toNat i).Has (i : Nat) c := by
          simp only [factorStage, ATab.Has, List.length_mapIdx]
          omega
        obtain ⟨df1, g1, g2⟩ := (dfSetFactor_eq h (i : Nat) c (v.text fmtD)).1 ⟨hHas, mapIdx_type_self hc⟩
        rw [g1]
        simp only [Res.ok_bind]
        apply ih (i + 1) df1 (by omega) (by omega)
        refine g2.congr rfl rfl ?_
        intro r k' _ _
        simp only [factorStage, ATab.update, Int.toNat_natCast]
        by_cases hk' : k' = c.toNat
        · subst hk'
          by_cases hr : r = i
          · subst hr
            simp [hv]
          · simp only [hr, false_and, if_false, if_true]
            by_cases hri : r < i
            · rw [if_pos (by omega), if_pos hri]
            · rw [if_neg (by omega), if_neg hri]
        · rw [if_neg hk', if_neg (by omega), if_neg hk']

theorem dfMakeFactor_eq (fmtD : UInt64 → Bytes) {df a} (h : DfRep df a) (c : Int) :
    (0 ≤ c ∧ c < a.cols.length → ∃ df', dfMakeFactor fmtD df c = .ok df' ∧
      DfRep df' { a with
        cols := a.cols.mapIdx (fun i x => if (i : Int) = c then (.factor, x.2) else x)
        cell := fun r i => if (i : Int) = c then (a.cell r i).map (fun v => .fac (v.text fmtD)) else a.cell r i }) ∧
    (¬ (0 ≤ c ∧ c < a.cols.length) → dfMakeFactor fmtD df c = .fatal) := by
  unfold dfMakeFactor dfColumn assertIndex
  rw [h.len]
  constructor
  · intro hc
    rw [if_pos (by omega)]
    simp only [Res.ok_bind]
    obtain ⟨dc, tl, e1, e2, e3⟩ := h.get (c := c.toNat) (by omega)
    have hcn : ((c.toNat : Nat) : Int) = c := by omega
    rw [readAt_get e1]
    simp only [Res.ok_bind]
    by_cases ht : dc.type = .factor
    · rw [if_pos ht]
      refine ⟨df, rfl, ?_⟩
      have hcols : a.cols.mapIdx (fun (i : Nat) x => if (i : Int) = c then ((.factor, x.2) : DCT × Bytes) else x) = a.cols := by
        apply List.ext_getElem?
        intro i
        rw [List.getElem?_mapIdx]
        by_cases hi : (i : Int) = c
        · have : i = c.toNat := by omega
          subst this
          rw [e2]
          simp only [Option.map_some]
          rw [if_pos hi, ← e3.head, ht]
        · cases a.cols[i]? with
          | none => rfl
          | some x => simp only [Option.map_some]; rw [if_neg hi]
      refine h.congr (by simp only [hcols]) rfl ?_
      intro r k hr hk
      simp only
      by_cases hki : (k : Int) = c
      · have : k = c.toNat := by omega
        subst this
        rw [if_pos hki]
        obtain ⟨e, f1, f2⟩ := e3.cells r hr
        rw [ht] at f2
        cases hv : a.cell r c.toNat with
        | none => rfl
        | some v =>
          simp only [hv] at f2
          cases e with
          | none => simp [Decodes] at f2
          | some x => cases x <;> cases v <;> simp [Decodes, AVal.text] at f2 ⊢
      · rw [if_neg hki]
    · rw [if_neg ht]
      have hlt := lt_of_get e1
      rw [writeAt_ok _ hlt]
      simp only [Res.ok_bind]
      have hn : df.nRows.toNat = a.n := by rw [h.n]; simp
      rw [hn]
      have hstage : DfRep { df with cols := df.cols.set c.toNat (dcNew .factor dc.label df.nRows) }
          (factorStage fmtD a c.toNat 0) := by
        refine ⟨h.n, by simp [factorStage, h.len], ?_⟩
        intro k d hd
        simp only at hd
        by_cases hk : c.toNat = k
        · subst hk
          rw [List.getElem?_set_self hlt] at hd
          cases hd
          refine ⟨(.factor, tl.2), ?_, ?_⟩
          · simp only [factorStage]
            rw [List.getElem?_mapIdx, e2]
            simp
          · refine ⟨by rw [← e3.head]; rfl, by simp [dcNew, factorStage, h.n], by simp [dcNew], ?_⟩
            intro r hr
            refine ⟨none, ?_, ?_⟩
            · have hr : r < a.n := hr
              simp only [dcNew, h.n, Int.toNat_natCast]
              rw [List.getElem?_replicate, if_pos hr]
            · simp [factorStage, Decodes]
        · rw [List.getElem?_set_ne hk] at hd
          obtain ⟨t2, g1, g2⟩ := h.col k d hd
          refine ⟨t2, ?_, g2.head, g2.len, g2.nodup, ?_⟩
          · simp only [factorStage]
            rw [List.getElem?_mapIdx, g1]
            simp only [Option.map_some]
            rw [if_neg (by omega)]
          · intro r hr
            obtain ⟨e, f1, f2⟩ := g2.cells r hr
            refine ⟨e, f1, ?_⟩
            simp only [factorStage]
            rw [if_neg (by omega)]
            exact f2
      obtain ⟨df', g1, g2⟩ := dfMakeFactorLoop_eq fmtD a c hc.1 (by omega) e3 ht (a.n - 0) 0 _ rfl (by omega) hstage
      refine ⟨df', g1, ?_⟩
      refine g2.congr ?_ rfl ?_
      · simp only [factorStage, hcn]
      · intro r k hr hk
        simp only [factorStage] at hr ⊢
        by_cases hki : (k : Int) = c
        · rw [if_pos hki, if_pos (by omega), if_pos hr]
        · rw [if_neg hki, if_neg (by omega)]
  · intro hc
    rw [if_neg (by omega)]
    rfl

theorem dfVsetOne_eq {df a} (h : DfRep df a) (r : Int) (c : Nat) (t : DCT) (x : DArg)
    (hr : 0 ≤ r ∧ r < a.n) (hc : c < a.cols.length) (ht : a.cols[c]?.map Prod.fst = some t) :
    match argVal t x with
    | some v => ∃ df', dfVsetOne df r c t x = .ok df' ∧ DfRep df' (a.update r.toNat c (some v))
    | none => dfVsetOne df r c t x = .ub := by
  have hH : a.Has r (c : Nat) := by unfold ATab.Has; omega
  have key : ∀ v : AVal, v.type = t → ∃ df', dfSetVal df r (c : Nat) v = .ok df' ∧
      DfRep df' (a.update r.toNat c (some v)) := by
    intro v hv
    obtain ⟨df', g1, g2⟩ := (dfSetVal_eq h r (c : Nat) v).1 ⟨hH, by rw [Int.toNat_natCast, hv]; exact ht⟩
    exact ⟨df', g1, by simpa using g2⟩
  cases t <;> cases x <;> first
    | rfl
    | exact key (.str _) rfl
    | exact key (.int _) rfl
    | exact key (.dbl _) rfl
    | exact key (.bool _) rfl
    | exact key (.fac _) rfl

theorem dfVsetLoop_eq (r : Int) : ∀ (args : List DArg) (c : Nat) (df : DFrame) (a : ATab),
    DfRep df a → 0 ≤ r ∧ r < a.n → c ≤ a.cols.length →
    match argVals ((a.cols.map Prod.fst).drop c) args with
    | some vs => ∃ df', dfVsetLoop df r c args = .ok df' ∧
        DfRep df' { a with cell := fun r' k =>
          if (r' : Int) = r ∧ c ≤ k ∧ k < a.cols.length then vs[k - c]? else a.cell r' k }
    | none => dfVsetLoop df r c args = .ub := by
  have fin : ∀ (args : List DArg) (c : Nat) (df : DFrame) (a : ATab), DfRep df a → c = a.cols.length →
      match argVals ((a.cols.map Prod.fst).drop c) args with
      | some vs => ∃ df', dfVsetLoop df r c args = .ok df' ∧
          DfRep df' { a with cell := fun r' k =>
            if (r' : Int) = r ∧ c ≤ k ∧ k < a.cols.length then vs[k - c]? else a.cell r' k }
      | none => dfVsetLoop df r c args = .ub := by
    intro args c df a h hc
    have e : (a.cols.map Prod.fst).drop c = [] := by rw [hc]; simp
    rw [e]
    have e2 : argVals [] args = some [] := by cases args <;> rfl
    rw [e2]
    refine ⟨df, ?_, h.congr rfl rfl ?_⟩
    · cases args with
      | nil => rw [dfVsetLoop, if_neg (by rw [h.len]; omega)]
      | cons x xs => rw [dfVsetLoop, if_neg (by rw [h.len]; omega)]
    · intro r' k _ _
      simp only
      rw [if_neg (by omega)]
  intro args
  induction args with
  | nil =>
    intro c df a h hr hc
    by_cases hcl : c = a.cols.length
    · exact fin [] c df a h hcl
    · have hlt : c < a.cols.length := by omega
      have e : (a.cols.map Prod.fst).drop c = (a.cols[c]).1 :: (a.cols.map Prod.fst).drop (c + 1) := by
        rw [List.drop_eq_getElem_cons (by simpa using hlt)]; simp
      rw [e]
      simp only [argVals]
      rw [dfVsetLoop, if_pos (by rw [h.len]; omega)]
  | cons x xs ih =>
    intro c df a h hr hc
    by_cases hcl : c = a.cols.length
    · exact fin (x :: xs) c df a h hcl
    · have hlt : c < a.cols.length := by omega
      have e : (a.cols.map Prod.fst).drop c = (a.cols[c]).1 :: (a.cols.map Prod.fst).drop (c + 1) := by
        rw [List.drop_eq_getElem_cons (by simpa using hlt)]; simp
      rw [e]
      obtain ⟨dc, tl, e1, e2, e3⟩ := h.get hlt
      have hdt : dc.type = (a.cols[c]).1 := by
        have := typeAt_eq h e1
        rw [List.getElem?_eq_getElem hlt] at this
        simpa using this.symm
      rw [dfVsetLoop, if_pos (by rw [h.len]; omega), readAt_get e1]
      simp only [Res.ok_bind, hdt, argVals]
      have h1 := dfVsetOne_eq h r c (a.cols[c]).1 x hr hlt (by rw [List.getElem?_eq_getElem hlt]; rfl)
      cases hv : argVal (a.cols[c]).1 x with
      | none =>
        rw [hv] at h1
        simp only at h1 ⊢
        rw [h1]
        rfl
      | some v =>
        rw [hv] at h1
        simp only at h1
        obtain ⟨df1, g1, g2⟩ := h1
        rw [g1]
        simp only [Res.ok_bind]
        have h2 := ih (c + 1) df1 (a.update r.toNat c (some v)) g2 hr (by simp [ATab.update]; omega)
        have e4 : (a.update r.toNat c (some v)).cols = a.cols := rfl
        rw [e4] at h2
        cases hvs : argVals ((a.cols.map Prod.fst).drop (c + 1)) xs with
        | none =>
          rw [hvs] at h2
          exact h2
        | some vs =>
          rw [hvs] at h2
          simp only at h2 ⊢
          obtain ⟨df', k1, k2⟩ := h2
          refine ⟨df', k1, k2.congr rfl rfl ?_⟩
          intro r' k _ _
          simp only [ATab.update]
          by_cases hr' : (r' : Int) = r
          · have hrn : r' = r.toNat := by omega
            by_cases hk : k = c
            · subst hk
              rw [if_pos ⟨hr', by omega, hlt⟩, if_neg (by omega), if_pos ⟨hrn, rfl⟩]
              simp
            · by_cases hk2 : c ≤ k ∧ k < a.cols.length
              · rw [if_pos ⟨hr', hk2⟩, if_pos ⟨hr', by omega, hk2.2⟩]
                have : k - c = (k - (c + 1)) + 1 := by omega
                rw [this]
                simp
              · rw [if_neg (fun x => hk2 x.2), if_neg (by omega), if_neg (by omega)]
          · rw [if_neg (fun x => hr' x.1), if_neg (fun x => hr' x.1), if_neg (by omega)]

theorem dfVset_eq {df a} (h : DfRep df a) (r : Int) (args : List DArg) :
    match a.setRow r args with
    | .ok a' => ∃ df', dfVset df r args = .ok df' ∧ DfRep df' a'
    | .fatal => dfVset df r args = .fatal
    | .ub => dfVset df r args = .ub := by
  unfold ATab.setRow dfVset assertIndex
  rw [h.n]
  by_cases hr : 0 ≤ r ∧ r < a.n
  · rw [if_pos hr, if_pos (by omega)]
    simp only [Res.ok_bind]
    have := dfVsetLoop_eq r args 0 df a h hr (by omega)
    simp only [List.drop_zero] at this
    cases hv : argVals (a.cols.map Prod.fst) args with
    | none => rw [hv] at this; exact this
    | some vs =>
      rw [hv] at this
      simp only at this ⊢
      obtain ⟨df', k1, k2⟩ := this
      refine ⟨df', k1, k2.congr rfl rfl ?_⟩
      intro r' k _ _
      simp
  · rw [if_neg hr, if_neg (by omega)]
    rfl

end Nx
