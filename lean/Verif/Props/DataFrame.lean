import Verif.Lemmas.DataFrame

/-!
# C30, C31: data frames behave as tables, factor columns keep their levels
-/

namespace Nx

theorem dfRep_empty : DfRep dfAlloc ATab.empty :=
  ⟨rfl, rfl, fun c dc h => by simp [dfAlloc] at h⟩

/-- Outcomes of a call on model and table agree. -/
def Agree (m : Res (DFrame × DfObs)) (s : Res (ATab × DfObs)) : Prop :=
  match s with
  | .ok (a', o) => ∃ df', m = .ok (df', o) ∧ DfRep df' a'
  | .fatal => m = .fatal
  | .ub => m = .ub

theorem dfStep_agree (fmtD : UInt64 → Bytes) {df a} (h : DfRep df a) (op : DfOp) :
    Agree (dfStep fmtD df op) (a.step fmtD op) := by
  cases op with
  | addColumn t l => exact ⟨_, rfl, dfAddColumn_rep h t l⟩
  | addRow =>
    have := dfAddRow_eq h
    simp only [dfStep, ATab.step]
    cases hx : a.addRow with
    | ok a' =>
      rw [hx] at this
      obtain ⟨df', k1, k2⟩ := this
      rw [k1]
      exact ⟨df', rfl, k2⟩
    | fatal => rw [hx] at this; simp only at this; rw [this]; rfl
    | ub => rw [hx] at this; simp only at this; rw [this]; rfl
  | setNa r c =>
    obtain ⟨h1, h2⟩ := dfSetNa_eq h r c
    simp only [dfStep, ATab.step]
    by_cases hh : a.Has r c
    · obtain ⟨df', k1, k2⟩ := h1 hh
      rw [if_pos hh, k1]
      exact ⟨df', rfl, k2⟩
    · rw [if_neg hh, h2 hh]; rfl
  | set r c v =>
    obtain ⟨h1, h2⟩ := dfSetVal_eq h r c v
    simp only [ATab.step]
    have e : dfStep fmtD df (.set r c v) = (dfSetVal df r c v >>= fun df => pure (df, .nothing)) := by
      cases v <;> rfl
    rw [e]
    by_cases hh : a.Has r c ∧ a.cols[c.toNat]?.map Prod.fst = some v.type
    · obtain ⟨df', k1, k2⟩ := h1 hh
      rw [if_pos hh, k1]
      exact ⟨df', rfl, k2⟩
    · rw [if_neg hh, h2 hh]; rfl
  | setRow r args =>
    have := dfVset_eq h r args
    simp only [dfStep, ATab.step]
    cases hx : a.setRow r args with
    | ok a' =>
      rw [hx] at this
      obtain ⟨df', k1, k2⟩ := this
      rw [k1]
      exact ⟨df', rfl, k2⟩
    | fatal => rw [hx] at this; simp only at this; rw [this]; rfl
    | ub => rw [hx] at this; simp only at this; rw [this]; rfl
  | appendRow args =>
    have h1 := dfAddRow_eq h
    simp only [dfStep, ATab.step, dfAppendRow]
    cases hx : a.addRow with
    | ok a' =>
      rw [hx] at h1
      obtain ⟨df', k1, k2⟩ := h1
      rw [k1]
      simp only [Res.ok_bind]
      have h2 := dfVset_eq k2 a.n args
      cases hy : a'.setRow a.n args with
      | ok a'' =>
        rw [hy] at h2
        obtain ⟨df'', k3, k4⟩ := h2
        rw [k3]
        exact ⟨df'', rfl, k4⟩
      | fatal => rw [hy] at h2; simp only at h2; rw [h2]; rfl
      | ub => rw [hy] at h2; simp only at h2; rw [h2]; rfl
    | fatal => rw [hx] at h1; simp only at h1; rw [h1]; rfl
    | ub => rw [hx] at h1; simp only at h1; rw [h1]; rfl
  | makeFactor c =>
    obtain ⟨h1, h2⟩ := dfMakeFactor_eq fmtD h c
    simp only [dfStep, ATab.step]
    by_cases hh : 0 ≤ c ∧ c < a.cols.length
    · obtain ⟨df', k1, k2⟩ := h1 hh
      rw [if_pos hh, k1]
      exact ⟨df', rfl, k2⟩
    · rw [if_neg hh, h2 hh]; rfl
  | isNa r c =>
    simp only [dfStep, ATab.step, dfIsNa]
    rw [dfCheck_eq h]
    by_cases hh : a.Has r c
    · rw [if_pos hh, if_pos hh]
      obtain ⟨dc, tl, e, e1, e2, e3, e4, e5, e6⟩ := dfElem_ok h hh
      simp only [Res.ok_bind]
      rw [e6]
      refine ⟨df, ?_, h⟩
      simp only [Res.ok_bind, Res.pure_eq]
      have : (e == none) = (a.cell r.toNat c.toNat == none) := by
        cases e with
        | none => cases hv : a.cell r.toNat c.toNat with
          | none => rfl
          | some v => rw [hv] at e5; simp [Decodes] at e5
        | some x => cases hv : a.cell r.toNat c.toNat with
          | none => rw [hv] at e5; cases x <;> simp [Decodes] at e5
          | some v => rfl
      rw [this]
    · rw [if_neg hh, if_neg hh]; rfl
  | get t r c =>
    obtain ⟨h1, h2⟩ := dfGet_eq h t r c
    simp only [ATab.step]
    by_cases hh : a.Has r c ∧ a.cols[c.toNat]?.map Prod.fst = some t
    · obtain ⟨dc, hty, k⟩ := h1 hh
      rw [if_pos hh]
      cases hv : a.cell r.toNat c.toNat with
      | none =>
        rw [hv] at k
        simp only at k
        cases t <;> simp only [dfStep, dfGetString, dfGetInt, dfGetDouble, dfGetBool, dfGetFactor, k] <;> rfl
      | some v =>
        rw [hv] at k
        simp only at k
        obtain ⟨x, k1, k2⟩ := k
        refine ⟨df, ?_, h⟩
        cases t with
        | factor =>
          simp only [dfStep, dfGetFactor, k1, Res.ok_bind]
          cases x <;> cases v <;> simp [Decodes] at k2
          rename_i i l
          have hlt := lt_of_get k2.2
          simp only [DVal.asInt, Res.ok_bind, assertIndex]
          rw [if_pos (by omega)]
          simp only [Res.ok_bind]
          rw [readAt_get k2.2]
          rfl
        | string =>
          simp only [dfStep, dfGetString, k1, Res.ok_bind]
          cases x <;> cases v <;> simp [Decodes] at k2
          subst k2; rfl
        | int =>
          simp only [dfStep, dfGetInt, k1, Res.ok_bind]
          cases x <;> cases v <;> simp [Decodes] at k2
          subst k2; rfl
        | double =>
          simp only [dfStep, dfGetDouble, k1, Res.ok_bind]
          cases x <;> cases v <;> simp [Decodes] at k2
          subst k2; rfl
        | bool =>
          simp only [dfStep, dfGetBool, k1, Res.ok_bind]
          cases x <;> cases v <;> simp [Decodes] at k2
          subst k2; rfl
    · rw [if_neg hh]
      have := h2 hh
      cases t <;> simp only [dfStep, dfGetString, dfGetInt, dfGetDouble, dfGetBool, dfGetFactor, this] <;> rfl

theorem dfRun_agree (fmtD : UInt64 → Bytes) : ∀ (ops : List DfOp) {df a}, DfRep df a →
    match a.run fmtD ops with
    | .ok (a', o) => ∃ df', dfRun fmtD df ops = .ok (df', o) ∧ DfRep df' a'
    | .fatal => dfRun fmtD df ops = .fatal
    | .ub => dfRun fmtD df ops = .ub
  | [], df, a, h => ⟨df, rfl, h⟩
  | op :: ops, df, a, h => by
    have h1 := dfStep_agree fmtD h op
    simp only [ATab.run, dfRun]
    cases hx : a.step fmtD op with
    | ok x =>
      rw [hx] at h1
      obtain ⟨df1, k1, k2⟩ := h1
      rw [k1]
      simp only [Res.ok_bind]
      have h2 := dfRun_agree fmtD ops k2
      cases hy : x.1.run fmtD ops with
      | ok y =>
        rw [hy] at h2
        obtain ⟨df2, k3, k4⟩ := h2
        rw [k3]
        exact ⟨df2, rfl, k4⟩
      | fatal => rw [hy] at h2; simp only at h2; rw [h2]; rfl
      | ub => rw [hy] at h2; simp only at h2; rw [h2]; rfl
    | fatal => rw [hx] at h1; simp only [Agree] at h1; rw [h1]; rfl
    | ub => rw [hx] at h1; simp only [Agree] at h1; rw [h1]; rfl

/-- C30: whatever calls are made on a new data frame — adding columns and rows, storing
and clearing cells, storing whole rows, converting columns to factors, reading — they
return what they return on a table of cells, and abort exactly when they would abort
there. -/
theorem c30_history (fmtD : UInt64 → Bytes) (ops : List DfOp) :
    (do let x ← dfRun fmtD dfAlloc ops; pure x.2 : Res (List DfObs)) =
    (do let x ← ATab.empty.run fmtD ops; pure x.2 : Res (List DfObs)) := by
  have := dfRun_agree fmtD ops dfRep_empty
  cases hx : ATab.empty.run fmtD ops with
  | ok x =>
    rw [hx] at this
    obtain ⟨df', k1, _⟩ := this
    rw [k1]; rfl
  | fatal => rw [hx] at this; simp only at this; rw [this]; rfl
  | ub => rw [hx] at this; simp only at this; rw [this]; rfl

/-- The call is about the cell `(r, c)`: it stores there, clears it, replaces its row
or converts its column. -/
def DfOp.Touches (r c : Int) : DfOp → Prop
  | .setNa r' c' => r' = r ∧ c' = c
  | .set r' c' _ => r' = r ∧ c' = c
  | .setRow r' _ => r' = r
  | .makeFactor c' => c' = c
  | _ => False

theorem step_untouched (fmtD : UInt64 → Bytes) {a a' : ATab} {o} {op : DfOp} (h : a.step fmtD op = .ok (a', o))
    {r c : Int} (hh : a.Has r c) (ht : ¬ op.Touches r c) :
    a'.Has r c ∧ a'.cell r.toNat c.toNat = a.cell r.toNat c.toNat ∧ a'.cols[c.toNat]? = a.cols[c.toNat]? := by
  obtain ⟨h1, h2, h3, h4⟩ := hh
  have hcl : c.toNat < a.cols.length := by omega
  have addRow : ∀ {a1}, a.addRow = .ok a1 → a1.Has r c ∧ a1.cell r.toNat c.toNat = a.cell r.toNat c.toNat ∧
      a1.cols = a.cols ∧ a1.n = a.n + 1 := by
    intro a1 ha
    unfold ATab.addRow at ha
    split at ha
    · cases ha
      refine ⟨⟨h1, ?_, h3, h4⟩, ?_, rfl, rfl⟩
      · simp only; omega
      · simp only; rw [if_neg (by omega)]
    · split at ha <;> cases ha
  have setRow : ∀ {a0 a1 : ATab} {r' args}, r' ≠ r → a0.setRow r' args = .ok a1 →
      a1.cell r.toNat c.toNat = a0.cell r.toNat c.toNat ∧ a1.cols = a0.cols ∧ a1.n = a0.n := by
    intro a0 a1 r' args hne ha
    unfold ATab.setRow at ha
    split at ha
    · split at ha
      · cases ha
        refine ⟨?_, rfl, rfl⟩
        simp only
        rw [if_neg (by omega)]
      · cases ha
    · cases ha
  cases op with
  | addColumn t l =>
    simp only [ATab.step] at h
    cases h
    refine ⟨⟨h1, h2, h3, by simp; omega⟩, ?_, ?_⟩
    · simp only; rw [if_neg (by omega)]
    · simp only; rw [List.getElem?_append_left hcl]
  | addRow =>
    simp only [ATab.step, Res.bind_eq_ok] at h
    obtain ⟨a1, e1, e2⟩ := h
    cases e2
    obtain ⟨x1, x2, x3, _⟩ := addRow e1
    exact ⟨x1, x2, by rw [x3]⟩
  | setNa r' c' =>
    simp only [ATab.step] at h
    split at h
    · rename_i hx
      cases h
      refine ⟨⟨h1, h2, h3, h4⟩, ?_, rfl⟩
      simp only [ATab.update]
      rw [if_neg]
      simp only [DfOp.Touches] at ht
      have := hx.1; have := hx.2.2.1
      omega
    · cases h
  | set r' c' v =>
    simp only [ATab.step] at h
    split at h
    · rename_i hx
      cases h
      refine ⟨⟨h1, h2, h3, h4⟩, ?_, rfl⟩
      simp only [ATab.update]
      rw [if_neg]
      simp only [DfOp.Touches] at ht
      have := hx.1.1; have := hx.1.2.2.1
      omega
    · cases h
  | setRow r' args =>
    simp only [ATab.step, Res.bind_eq_ok] at h
    obtain ⟨a1, e1, e2⟩ := h
    cases e2
    obtain ⟨x1, x2, x3⟩ := setRow ht e1
    exact ⟨⟨h1, by rw [x3]; exact h2, h3, by rw [x2]; exact h4⟩, x1, by rw [x2]⟩
  | appendRow args =>
    simp only [ATab.step, Res.bind_eq_ok] at h
    obtain ⟨a1, e1, a2, e2, e3⟩ := h
    cases e3
    obtain ⟨x1, x2, x3, x4⟩ := addRow e1
    obtain ⟨y1, y2, y3⟩ := setRow (r' := a.n) (by omega) e2
    refine ⟨⟨h1, by rw [y3, x4]; omega, h3, by rw [y2, x3]; exact h4⟩, by rw [y1, x2], by rw [y2, x3]⟩
  | makeFactor c' =>
    simp only [ATab.step] at h
    split at h
    · rename_i hx
      cases h
      simp only [DfOp.Touches] at ht
      refine ⟨⟨h1, h2, h3, by simp; omega⟩, ?_, ?_⟩
      · simp only; rw [if_neg (by omega)]
      · simp only
        rw [List.getElem?_mapIdx, List.getElem?_eq_getElem hcl]
        simp only [Option.map_some]
        rw [if_neg (by omega)]
    · cases h
  | isNa r' c' =>
    simp only [ATab.step] at h
    split at h
    · cases h; exact ⟨⟨h1, h2, h3, h4⟩, rfl, rfl⟩
    · cases h
  | get t r' c' =>
    simp only [ATab.step] at h
    split at h
    · split at h
      · cases h; exact ⟨⟨h1, h2, h3, h4⟩, rfl, rfl⟩
      · cases h
    · cases h

theorem run_untouched (fmtD : UInt64 → Bytes) : ∀ {ops : List DfOp} {a a' : ATab} {o},
    a.run fmtD ops = .ok (a', o) → ∀ {r c : Int}, a.Has r c → (∀ op ∈ ops, ¬ op.Touches r c) →
    a'.Has r c ∧ a'.cell r.toNat c.toNat = a.cell r.toNat c.toNat ∧ a'.cols[c.toNat]? = a.cols[c.toNat]?
  | [], a, a', o, h, r, c, hh, _ => by cases h; exact ⟨hh, rfl, rfl⟩
  | op :: ops, a, a', o, h, r, c, hh, ht => by
    simp only [ATab.run, Res.bind_eq_ok] at h
    obtain ⟨x, e1, y, e2, e3⟩ := h
    cases e3
    obtain ⟨i1, i2, i3⟩ := step_untouched fmtD e1 hh (ht op (by simp))
    obtain ⟨j1, j2, j3⟩ := run_untouched fmtD e2 i1 (fun op h => ht op (by simp [h]))
    exact ⟨j1, by rw [j2, i2], by rw [j3, i3]⟩

theorem ATab.run_append (fmtD : UInt64 → Bytes) : ∀ (ops1 ops2 : List DfOp) (a : ATab),
    a.run fmtD (ops1 ++ ops2) = (a.run fmtD ops1 >>= fun x => x.1.run fmtD ops2 >>= fun y =>
      pure (y.1, x.2 ++ y.2))
  | [], ops2, a => by
    simp only [List.nil_append, ATab.run, Res.ok_bind, List.nil_append]
    cases a.run fmtD ops2 <;> rfl
  | op :: ops1, ops2, a => by
    simp only [List.cons_append, ATab.run]
    cases a.step fmtD op with
    | ok x =>
      simp only [Res.ok_bind]
      rw [ATab.run_append fmtD ops1 ops2 x.1]
      cases x.1.run fmtD ops1 with
      | ok y =>
        simp only [Res.ok_bind, Res.pure_eq]
        cases y.1.run fmtD ops2 <;> rfl
      | fatal => rfl
      | ub => rfl
    | fatal => rfl
    | ub => rfl

/-- The outcome of a history on the model, in terms of the table. -/
theorem dfRun_ok (fmtD : UInt64 → Bytes) {ops : List DfOp} {df o} (h : dfRun fmtD dfAlloc ops = .ok (df, o)) :
    ∃ a, ATab.empty.run fmtD ops = .ok (a, o) ∧ DfRep df a := by
  have := dfRun_agree fmtD ops dfRep_empty
  cases hx : ATab.empty.run fmtD ops with
  | ok x =>
    rw [hx] at this
    obtain ⟨df', k1, k2⟩ := this
    rw [h] at k1
    cases k1
    exact ⟨x.1, rfl, k2⟩
  | fatal => rw [hx] at this; simp only at this; rw [h] at this; cases this
  | ub => rw [hx] at this; simp only at this; rw [h] at this; cases this

theorem dfRun_of_run (fmtD : UInt64 → Bytes) {ops : List DfOp} {a o} (h : ATab.empty.run fmtD ops = .ok (a, o)) :
    ∃ df, dfRun fmtD dfAlloc ops = .ok (df, o) := by
  have := dfRun_agree fmtD ops dfRep_empty
  rw [h] at this
  obtain ⟨df', k1, k2⟩ := this
  exact ⟨df', k1⟩

/-- C30: reading a cell returns the last value stored there, whatever else was done in
between to other cells, rows and columns. -/
theorem c30_last_value (fmtD : UInt64 → Bytes) (ops1 ops2 : List DfOp) (r c : Int) (v : AVal) (df : DFrame)
    (obs : List DfObs) (h : dfRun fmtD dfAlloc (ops1 ++ (.set r c v :: ops2)) = .ok (df, obs))
    (ht : ∀ op ∈ ops2, ¬ op.Touches r c) :
    ∃ df', dfRun fmtD dfAlloc (ops1 ++ (.set r c v :: ops2) ++ [.get v.type r c]) = .ok (df', obs ++ [.val v]) := by
  obtain ⟨a, h1, _⟩ := dfRun_ok fmtD h
  have h0 := h1
  rw [ATab.run_append, Res.bind_eq_ok] at h1
  obtain ⟨x, e1, h1⟩ := h1
  rw [Res.bind_eq_ok] at h1
  obtain ⟨y, e2, h1⟩ := h1
  cases h1
  simp only [ATab.run, Res.bind_eq_ok] at e2
  obtain ⟨z, f1, w, f2, f3⟩ := e2
  cases f3
  simp only [ATab.step] at f1
  split at f1
  · rename_i hx
    cases f1
    obtain ⟨i1, i2, i3⟩ := run_untouched fmtD f2 (r := r) (c := c) hx.1 ht
    apply dfRun_of_run (a := w.1)
    rw [ATab.run_append, h0]
    simp only [Res.ok_bind, ATab.run, ATab.step]
    rw [if_pos ⟨i1, by rw [i3]; exact hx.2⟩, i2]
    simp [ATab.update]
  · cases f1

/-- C30: a cell that was cleared reads as missing. -/
theorem c30_cleared (fmtD : UInt64 → Bytes) (ops1 ops2 : List DfOp) (r c : Int) (df : DFrame)
    (obs : List DfObs) (h : dfRun fmtD dfAlloc (ops1 ++ (.setNa r c :: ops2)) = .ok (df, obs))
    (ht : ∀ op ∈ ops2, ¬ op.Touches r c) :
    ∃ df', dfRun fmtD dfAlloc (ops1 ++ (.setNa r c :: ops2) ++ [.isNa r c]) = .ok (df', obs ++ [.na true]) := by
  obtain ⟨a, h1, _⟩ := dfRun_ok fmtD h
  have h0 := h1
  rw [ATab.run_append, Res.bind_eq_ok] at h1
  obtain ⟨x, e1, h1⟩ := h1
  rw [Res.bind_eq_ok] at h1
  obtain ⟨y, e2, h1⟩ := h1
  cases h1
  simp only [ATab.run, Res.bind_eq_ok] at e2
  obtain ⟨z, f1, w, f2, f3⟩ := e2
  cases f3
  simp only [ATab.step] at f1
  split at f1
  · rename_i hx
    cases f1
    obtain ⟨i1, i2, i3⟩ := run_untouched fmtD f2 (r := r) (c := c) hx ht
    apply dfRun_of_run (a := w.1)
    rw [ATab.run_append, h0]
    simp only [Res.ok_bind, ATab.run, ATab.step]
    rw [if_pos i1, i2]
    simp [ATab.update]
  · cases f1

/-- The cell `(r, c)` is missing or does not exist yet. -/
def ATab.Blank (a : ATab) (r c : Int) : Prop := a.Has r c → a.cell r.toNat c.toNat = none

theorem step_blank (fmtD : UInt64 → Bytes) {a a' : ATab} {o} {op : DfOp} (h : a.step fmtD op = .ok (a', o))
    {r c : Int} (hb : a.Blank r c) (ht : ¬ op.Touches r c) (hap : ∀ args, op ≠ .appendRow args) : a'.Blank r c := by
  intro hh'
  by_cases hh : a.Has r c
  · rw [(step_untouched fmtD h hh ht).2.1]
    exact hb hh
  · cases op with
    | addColumn t l =>
      simp only [ATab.step] at h
      cases h
      obtain ⟨h1, h2, h3, h4⟩ := hh'
      simp only [List.length_append, List.length_cons, List.length_nil] at h2 h4
      simp only
      rw [if_pos]
      by_cases he : c.toNat = a.cols.length
      · exact he
      · exact absurd ⟨h1, h2, h3, by omega⟩ hh
    | addRow =>
      simp only [ATab.step, Res.bind_eq_ok] at h
      obtain ⟨a1, e1, e2⟩ := h
      cases e2
      unfold ATab.addRow at e1
      split at e1
      · cases e1
        obtain ⟨h1, h2, h3, h4⟩ := hh'
        simp only at h2 h4 ⊢
        rw [if_pos]
        by_cases he : r.toNat = a.n
        · exact he
        · exact absurd ⟨h1, by omega, h3, h4⟩ hh
      · split at e1 <;> cases e1
    | setNa r' c' =>
      simp only [ATab.step] at h
      split at h
      · cases h; exact absurd hh' hh
      · cases h
    | set r' c' v =>
      simp only [ATab.step] at h
      split at h
      · cases h; exact absurd hh' hh
      · cases h
    | setRow r' args =>
      simp only [ATab.step, Res.bind_eq_ok] at h
      obtain ⟨a1, e1, e2⟩ := h
      cases e2
      unfold ATab.setRow at e1
      split at e1
      · split at e1
        · cases e1; exact absurd hh' hh
        · cases e1
      · cases e1
    | appendRow args => exact absurd rfl (hap args)
    | makeFactor c' =>
      simp only [ATab.step] at h
      split at h
      · cases h
        obtain ⟨h1, h2, h3, h4⟩ := hh'
        simp only [List.length_mapIdx] at h4
        exact absurd ⟨h1, h2, h3, h4⟩ hh
      · cases h
    | isNa r' c' =>
      simp only [ATab.step] at h
      split at h
      · cases h; exact absurd hh' hh
      · cases h
    | get t r' c' =>
      simp only [ATab.step] at h
      split at h
      · split at h
        · cases h; exact absurd hh' hh
        · cases h
      · cases h

theorem run_blank (fmtD : UInt64 → Bytes) {r c : Int} : ∀ {ops : List DfOp} {a a' : ATab} {o},
    a.run fmtD ops = .ok (a', o) → a.Blank r c → (∀ op ∈ ops, ¬ op.Touches r c) →
    (∀ args, .appendRow args ∉ ops) → a'.Blank r c
  | [], a, a', o, h, hb, _, _ => by cases h; exact hb
  | op :: ops, a, a', o, h, hb, ht, hap => by
    simp only [ATab.run, Res.bind_eq_ok] at h
    obtain ⟨x, e1, y, e2, e3⟩ := h
    cases e3
    exact run_blank fmtD e2 (step_blank fmtD e1 hb (ht op (by simp)) (fun args e => hap args (by rw [e]; simp)))
      (fun op h => ht op (by simp [h])) (fun args h => hap args (by simp [h]))

/-- C30: a cell in which nothing was ever stored reads as missing. -/
theorem c30_never_stored (fmtD : UInt64 → Bytes) (ops : List DfOp) (r c : Int) (df : DFrame) (obs : List DfObs)
    (h : dfRun fmtD dfAlloc ops = .ok (df, obs)) (ht : ∀ op ∈ ops, ¬ op.Touches r c)
    (hap : ∀ args, .appendRow args ∉ ops) (hr : 0 ≤ r ∧ r < df.nRows) (hc : 0 ≤ c ∧ c < df.cols.length) :
    ∃ df', dfRun fmtD dfAlloc (ops ++ [.isNa r c]) = .ok (df', obs ++ [.na true]) := by
  obtain ⟨a, h1, h2⟩ := dfRun_ok fmtD h
  have hb := run_blank fmtD (r := r) (c := c) h1 (fun x => by have := x.2.1; simp [ATab.empty] at this; omega) ht hap
  have hh : a.Has r c := by
    have := h2.n; have := h2.len
    exact ⟨hr.1, by omega, hc.1, by omega⟩
  apply dfRun_of_run (a := a)
  rw [ATab.run_append, h1]
  simp only [Res.ok_bind, ATab.run, ATab.step]
  rw [if_pos hh, hb hh]
  rfl

/-- The call passes no variable arguments. -/
def DfOp.Typed : DfOp → Prop
  | .setRow _ _ => False
  | .appendRow _ => False
  | _ => True

theorem run_no_ub (fmtD : UInt64 → Bytes) : ∀ (ops : List DfOp) (a : ATab),
    a.n + ops.length < 2147483648 → (∀ op ∈ ops, op.Typed) → a.run fmtD ops ≠ .ub
  | [], a, _, _ => by simp [ATab.run]
  | op :: ops, a, hn, ht => by
    intro h
    simp only [ATab.run] at h
    have hop := ht op (by simp)
    simp only [List.length_cons] at hn
    have step : ∀ x : ATab × DfObs, x.1.n ≤ a.n + 1 → (Res.ok x >>= fun x => do
        let y ← x.1.run fmtD ops
        pure (y.1, x.2 :: y.2) : Res (ATab × List DfObs)) ≠ .ub := by
      intro x hx e
      simp only [Res.ok_bind] at e
      have := run_no_ub fmtD ops x.1 (by omega) (fun op h => ht op (by simp [h]))
      cases hy : x.1.run fmtD ops with
      | ok y => rw [hy] at e; cases e
      | fatal => rw [hy] at e; cases e
      | ub => exact this hy
    have fatal : (Res.fatal >>= fun x : ATab × DfObs => do
        let y ← x.1.run fmtD ops
        pure (y.1, x.2 :: y.2) : Res (ATab × List DfObs)) ≠ .ub := by simp
    cases op with
    | addColumn t l => exact step _ (by simp) h
    | addRow =>
      simp only [ATab.step, ATab.addRow] at h
      rw [if_pos (by omega)] at h
      exact step _ (by simp) h
    | setNa r c => simp only [ATab.step] at h; split at h <;> first | exact step _ (by simp [ATab.update]) h | exact fatal h
    | set r c v => simp only [ATab.step] at h; split at h <;> first | exact step _ (by simp [ATab.update]) h | exact fatal h
    | setRow r args => exact hop
    | appendRow args => exact hop
    | makeFactor c => simp only [ATab.step] at h; split at h <;> first | exact step _ (by simp) h | exact fatal h
    | isNa r c => simp only [ATab.step] at h; split at h <;> first | exact step _ (by simp) h | exact fatal h
    | get t r c =>
      simp only [ATab.step] at h
      split at h
      · split at h <;> first | exact step _ (by simp) h | exact fatal h
      · exact fatal h

/-- C30: no call sequence of fewer than 2^31 calls is undefined (calls with variable
arguments need arguments of the right types and are excluded here). -/
theorem c30_defined (fmtD : UInt64 → Bytes) (ops : List DfOp) (hn : ops.length < 2147483648)
    (ht : ∀ op ∈ ops, op.Typed) : dfRun fmtD dfAlloc ops ≠ .ub := by
  have := dfRun_agree fmtD ops dfRep_empty
  have h2 := run_no_ub fmtD ops ATab.empty (by simp [ATab.empty]; omega) ht
  intro e
  cases hx : ATab.empty.run fmtD ops with
  | ok x =>
    rw [hx] at this
    obtain ⟨df', k1, _⟩ := this
    rw [e] at k1; cases k1
  | fatal => rw [hx] at this; simp only at this; rw [e] at this; cases this
  | ub => exact h2 hx

/-- A history with all kinds of calls. -/
example : (do
      let x ← dfRun (fun _ => []) dfAlloc [.addColumn .string (bytesOf "name"), .addColumn .int (bytesOf "x"),
        .addRow, .set 0 0 (.str (bytesOf "a")), .appendRow [.str (bytesOf "b"), .int 7], .makeFactor 0,
        .set 0 1 (.int 5), .addColumn .bool (bytesOf "z"), .get .factor 1 0, .get .int 0 1, .isNa 1 2]
      pure x.2 : Res (List DfObs)) =
    .ok [.nothing, .nothing, .row 0, .nothing, .row 1, .nothing, .nothing, .nothing, .val (.fac (bytesOf "b")),
      .val (.int 5), .na true] := by decide +kernel

/-! ## C31 -/

/-- C31: a label stored in a factor column is read back, whatever else was stored in
between in other cells — in particular other labels in the same column. -/
theorem c31_store_read (fmtD : UInt64 → Bytes) (ops1 ops2 : List DfOp) (r c : Int) (s : Bytes) (df : DFrame)
    (obs : List DfObs) (h : dfRun fmtD dfAlloc (ops1 ++ (.set r c (.fac s) :: ops2)) = .ok (df, obs))
    (ht : ∀ op ∈ ops2, ¬ op.Touches r c) :
    ∃ df', dfRun fmtD dfAlloc (ops1 ++ (.set r c (.fac s) :: ops2) ++ [.get .factor r c]) =
      .ok (df', obs ++ [.val (.fac s)]) :=
  c30_last_value fmtD ops1 ops2 r c (.fac s) df obs h ht

/-- C31: the levels of every column are distinct after any history. -/
theorem c31_levels_distinct (fmtD : UInt64 → Bytes) (ops : List DfOp) (df : DFrame) (obs : List DfObs)
    (h : dfRun fmtD dfAlloc ops = .ok (df, obs)) : ∀ dc ∈ df.cols, dc.levels.Nodup := by
  obtain ⟨a, _, h2⟩ := dfRun_ok fmtD h
  intro dc hdc
  obtain ⟨i, hi⟩ := List.getElem?_of_mem hdc
  obtain ⟨tl, _, e⟩ := h2.col i dc hi
  exact e.nodup

/-- Factor columns stay factor columns, and a level keeps its code. -/
def LevelsKept (df df' : DFrame) : Prop :=
  ∀ (c : Nat) (dc : DCol), df.cols[c]? = some dc → ∃ dc', df'.cols[c]? = some dc' ∧ dc'.label = dc.label ∧
    (dc.type = .factor → dc'.type = .factor ∧ ∀ (i : Nat) (s : Bytes), dc.levels[i]? = some s → dc'.levels[i]? = some s)

theorem LevelsKept.refl (df : DFrame) : LevelsKept df df :=
  fun _ dc h => ⟨dc, h, rfl, fun ht => ⟨ht, fun _ _ h => h⟩⟩

theorem LevelsKept.trans {a b c : DFrame} (h1 : LevelsKept a b) (h2 : LevelsKept b c) : LevelsKept a c := by
  intro i dc h
  obtain ⟨d1, e1, e2, e3⟩ := h1 i dc h
  obtain ⟨d2, f1, f2, f3⟩ := h2 i d1 e1
  refine ⟨d2, f1, by rw [f2, e2], fun ht => ?_⟩
  obtain ⟨g1, g2⟩ := e3 ht
  obtain ⟨k1, k2⟩ := f3 g1
  exact ⟨k1, fun i s h => k2 i s (g2 i s h)⟩

theorem dfPut_kept {df df' : DFrame} {dc dc' : DCol} {r c : Int} {v} (hc : df.cols[c.toNat]? = some dc)
    (ht : dc'.type = dc.type) (hl : dc'.label = dc.label) (hp : dc.levels <+: dc'.levels)
    (h : dfPut df dc' r c v = .ok df') : LevelsKept df df' := by
  unfold dfPut at h
  rw [Res.bind_eq_ok] at h
  obtain ⟨es, e1, h⟩ := h
  rw [writeAt_ok _ (lt_of_get hc)] at h
  cases h
  intro i d hd
  by_cases hi : c.toNat = i
  · subst hi
    rw [hc] at hd
    cases hd
    refine ⟨{ dc' with elems := es }, by simp only; rw [List.getElem?_set_self (lt_of_get hc)], hl, fun h => ⟨?_, ?_⟩⟩
    · simp only; rw [ht, h]
    · intro i s h
      obtain ⟨x, hx⟩ := hp
      simp only [← hx]
      rw [List.getElem?_append_left (lt_of_get h)]
      exact h
  · refine ⟨d, by simp only; rw [List.getElem?_set_ne hi]; exact hd, rfl, fun h => ⟨h, fun _ _ h => h⟩⟩

theorem dfElem_col {df r c x} (h : dfElem df r c = .ok x) : df.cols[c.toNat]? = some x.1 := by
  unfold dfElem at h
  rw [Res.bind_eq_ok] at h
  obtain ⟨dc, e1, h⟩ := h
  rw [Res.bind_eq_ok] at h
  obtain ⟨e, e2, h⟩ := h
  cases h
  unfold readAt at e1
  split at e1
  · rename_i hx; cases e1; exact hx
  · cases e1

theorem dfSet_kept {df df' t r c x} (h : dfSet df t r c x = .ok df') : LevelsKept df df' := by
  unfold dfSet at h
  rw [Res.bind_eq_ok] at h
  obtain ⟨_, _, h⟩ := h
  rw [Res.bind_eq_ok] at h
  obtain ⟨e, e1, h⟩ := h
  split at h
  · cases h
  · exact dfPut_kept (dfElem_col e1) rfl rfl (List.prefix_refl _) h

theorem valueToFactor_prefix (lv : List Bytes) (s : Bytes) : lv <+: (valueToFactor lv s).1 := by
  unfold valueToFactor
  split
  · exact List.prefix_refl _
  · exact List.prefix_append _ _

theorem dfSetFactor_kept {df df' r c s} (h : dfSetFactor df r c s = .ok df') : LevelsKept df df' := by
  unfold dfSetFactor at h
  rw [Res.bind_eq_ok] at h
  obtain ⟨_, _, h⟩ := h
  rw [Res.bind_eq_ok] at h
  obtain ⟨e, e1, h⟩ := h
  split at h
  · cases h
  · simp only at h
    exact dfPut_kept (dc' := { e.1 with levels := (valueToFactor e.1.levels s).1 }) (dfElem_col e1) rfl rfl
      (valueToFactor_prefix _ _) h

theorem dcAppendRow_kept {d d1 : DCol} (h : dcAppendRow d = .ok d1) : ∃ es, d1 = { d with elems := es } := by
  unfold dcAppendRow at h
  split at h
  · cases h; exact ⟨_, rfl⟩
  · cases h

theorem dfAppendRows_kept (cols : List DCol) : ∀ (cols' : List DCol), dfAppendRows cols = .ok cols' →
    ∀ (i : Nat) (dc : DCol), cols[i]? = some dc → ∃ es, cols'[i]? = some { dc with elems := es } := by
  induction cols with
  | nil => intro _ _ i dc hi; simp at hi
  | cons d cs ih =>
    intro cols' h i dc hi
    rw [dfAppendRows, Res.bind_eq_ok] at h
    obtain ⟨d1, e1, h⟩ := h
    rw [Res.bind_eq_ok] at h
    obtain ⟨cs1, e2, h⟩ := h
    cases h
    cases i with
    | zero =>
      obtain ⟨es, he⟩ := dcAppendRow_kept e1
      rw [List.getElem?_cons_zero] at hi ⊢
      cases hi
      exact ⟨es, by rw [he]⟩
    | succ i =>
      rw [List.getElem?_cons_succ] at hi ⊢
      exact ih cs1 e2 i dc hi

theorem dfAddRow_kept {df df' r} (h : dfAddRow df = .ok (df', r)) : LevelsKept df df' := by
  unfold dfAddRow at h
  rw [Res.bind_eq_ok] at h
  obtain ⟨cols, e1, h⟩ := h
  split at h
  · cases h
    intro i dc hi
    obtain ⟨es, e⟩ := dfAppendRows_kept _ _ e1 i dc hi
    exact ⟨_, e, rfl, fun ht => ⟨ht, fun _ _ h => h⟩⟩
  · cases h

theorem dfMakeFactorLoop_kept (fmtD : UInt64 → Bytes) (dc : DCol) (c : Int) (n : Nat) : ∀ (k i : Nat) (df df' : DFrame),
    n - i = k → dfMakeFactorLoop fmtD dc c n i df = .ok df' → LevelsKept df df' := by
  intro k
  induction k with
  | zero =>
    intro i df df' hk h
    rw [dfMakeFactorLoop, if_neg (by omega)] at h
    cases h
    exact .refl _
  | succ k ih =>
    intro i df df' hk h
    rw [dfMakeFactorLoop, if_pos (by omega), Res.bind_eq_ok] at h
    obtain ⟨e, e1, h⟩ := h
    cases e with
    | none => exact ih (i + 1) df df' (by omega) h
    | some v =>
      simp only [Res.bind_eq_ok] at h
      obtain ⟨s, e2, df1, e3, h⟩ := h
      exact (dfSetFactor_kept e3).trans (ih (i + 1) df1 df' (by omega) h)

theorem dfMakeFactor_kept (fmtD : UInt64 → Bytes) {df df' c} (h : dfMakeFactor fmtD df c = .ok df') :
    LevelsKept df df' := by
  unfold dfMakeFactor dfColumn at h
  rw [Res.bind_eq_ok] at h
  obtain ⟨dc, e1, h⟩ := h
  rw [Res.bind_eq_ok] at e1
  obtain ⟨_, _, e1⟩ := e1
  have hdc : df.cols[c.toNat]? = some dc := by
    unfold readAt at e1
    split at e1
    · rename_i hx; cases e1; exact hx
    · cases e1
  split at h
  · cases h; exact .refl _
  · rename_i hty
    rw [writeAt_ok _ (lt_of_get hdc)] at h
    simp only [Res.ok_bind] at h
    have h1 := dfMakeFactorLoop_kept fmtD dc c _ _ 0 _ df' rfl h
    refine LevelsKept.trans ?_ h1
    intro i d hd
    by_cases hi : c.toNat = i
    · subst hi
      rw [hdc] at hd
      cases hd
      exact ⟨dcNew .factor dc.label df.nRows, by simp only; rw [List.getElem?_set_self (lt_of_get hdc)], rfl,
        fun h => absurd h hty⟩
    · exact ⟨d, by simp only; rw [List.getElem?_set_ne hi]; exact hd, rfl, fun h => ⟨h, fun _ _ h => h⟩⟩

theorem dfVsetLoop_kept (r : Int) : ∀ (args : List DArg) (c : Nat) (df df' : DFrame),
    dfVsetLoop df r c args = .ok df' → LevelsKept df df' := by
  intro args
  induction args with
  | nil =>
    intro c df df' h
    rw [dfVsetLoop] at h
    split at h
    · cases h
    · cases h; exact .refl _
  | cons a as ih =>
    intro c df df' h
    rw [dfVsetLoop] at h
    split at h
    · rw [Res.bind_eq_ok] at h
      obtain ⟨dc, _, h⟩ := h
      rw [Res.bind_eq_ok] at h
      obtain ⟨df1, e1, h⟩ := h
      refine LevelsKept.trans ?_ (ih (c + 1) df1 df' h)
      unfold dfVsetOne at e1
      split at e1
      · exact dfSet_kept e1
      · exact dfSet_kept e1
      · exact dfSet_kept e1
      · exact dfSet_kept e1
      · exact dfSetFactor_kept e1
      · cases e1
    · cases h; exact .refl _

theorem dfVset_kept {df df' r args} (h : dfVset df r args = .ok df') : LevelsKept df df' := by
  unfold dfVset at h
  rw [Res.bind_eq_ok] at h
  obtain ⟨_, _, h⟩ := h
  exact dfVsetLoop_kept r args 0 df df' h

theorem dfStep_kept (fmtD : UInt64 → Bytes) {df x op} (h : dfStep fmtD df op = .ok x) : LevelsKept df x.1 := by
  cases op with
  | addColumn t l =>
    cases h
    intro i d hd
    refine ⟨d, ?_, rfl, fun h => ⟨h, fun _ _ h => h⟩⟩
    simp only [dfAddColumn]
    rw [List.getElem?_append_left (lt_of_get hd)]
    exact hd
  | addRow =>
    simp only [dfStep, Res.bind_eq_ok] at h
    obtain ⟨y, e1, e2⟩ := h
    cases e2
    exact dfAddRow_kept e1
  | setNa r c =>
    simp only [dfStep, dfSetNa, Res.bind_eq_ok] at h
    obtain ⟨y, ⟨_, _, e, e1, e3⟩, e2⟩ := h
    cases e2
    exact dfPut_kept (dfElem_col e1) rfl rfl (List.prefix_refl _) e3
  | set r c v =>
    simp only [dfStep, Res.bind_eq_ok] at h
    obtain ⟨y, e1, e2⟩ := h
    cases e2
    cases v with
    | str s => exact dfSet_kept e1
    | int s => exact dfSet_kept e1
    | dbl s => exact dfSet_kept e1
    | bool s => exact dfSet_kept e1
    | fac s => exact dfSetFactor_kept e1
  | setRow r args =>
    simp only [dfStep, Res.bind_eq_ok] at h
    obtain ⟨y, e1, e2⟩ := h
    cases e2
    exact dfVset_kept e1
  | appendRow args =>
    simp only [dfStep, dfAppendRow, Res.bind_eq_ok] at h
    obtain ⟨y, ⟨z, e1, w, e3, e4⟩, e2⟩ := h
    cases e2
    cases e4
    exact (dfAddRow_kept e1).trans (dfVset_kept e3)
  | makeFactor c =>
    simp only [dfStep, Res.bind_eq_ok] at h
    obtain ⟨y, e1, e2⟩ := h
    cases e2
    exact dfMakeFactor_kept fmtD e1
  | isNa r c =>
    simp only [dfStep, Res.bind_eq_ok] at h
    obtain ⟨y, e1, e2⟩ := h
    cases e2
    exact .refl _
  | get t r c =>
    cases t <;> simp only [dfStep, Res.bind_eq_ok] at h <;> obtain ⟨y, e1, e2⟩ := h <;> cases e2 <;>
      exact LevelsKept.refl _

/-- C31: whatever calls follow, a factor column stays one and its levels keep their
codes. -/
theorem c31_codes_stable (fmtD : UInt64 → Bytes) : ∀ (ops : List DfOp) (df df' : DFrame) (obs : List DfObs),
    dfRun fmtD df ops = .ok (df', obs) → LevelsKept df df'
  | [], df, df', obs, h => by cases h; exact .refl _
  | op :: ops, df, df', obs, h => by
    simp only [dfRun, Res.bind_eq_ok] at h
    obtain ⟨x, e1, y, e2, e3⟩ := h
    cases e3
    exact (dfStep_kept fmtD e1).trans (c31_codes_stable fmtD ops x.1 y.1 y.2 e2)

/-- C31: converting a string column to a factor keeps the text of every cell. -/
theorem c31_make_factor (fmtD : UInt64 → Bytes) (ops : List DfOp) (r c : Int) (s : Bytes) (df : DFrame)
    (obs : List DfObs) (h : dfRun fmtD dfAlloc (ops ++ [.get .string r c]) = .ok (df, obs ++ [.val (.str s)])) :
    ∃ df', dfRun fmtD dfAlloc (ops ++ [.makeFactor c, .get .factor r c]) =
      .ok (df', obs ++ [.nothing, .val (.fac s)]) := by
  obtain ⟨a, h1, _⟩ := dfRun_ok fmtD h
  rw [ATab.run_append, Res.bind_eq_ok] at h1
  obtain ⟨x, e1, h1⟩ := h1
  rw [Res.bind_eq_ok] at h1
  obtain ⟨y, e2, h1⟩ := h1
  simp only [ATab.run, ATab.step, Res.bind_eq_ok] at e2
  obtain ⟨z, f1, w, f2, f3⟩ := e2
  cases f2
  cases f3
  split at f1
  · rename_i hx
    split at f1
    · rename_i v hv
      cases f1
      simp only [Res.pure_eq, Res.ok.injEq, Prod.mk.injEq] at h1
      obtain ⟨h1, h2⟩ := h1
      obtain ⟨h3, h4⟩ := List.append_inj' h2 rfl
      simp at h4
      subst h4
      obtain ⟨q1, q2, q3, q4⟩ := hx.1
      apply dfRun_of_run (a := _)
      rw [ATab.run_append, e1]
      simp only [Res.ok_bind, ATab.run, ATab.step]
      rw [if_pos ⟨q3, q4⟩]
      simp only [Res.ok_bind]
      rw [if_pos]
      · have : ((c.toNat : Nat) : Int) = c := by omega
        simp only [this, if_true, hv, Option.map_some, AVal.text, Res.ok_bind, Res.pure_eq, h3]
        rfl
      · refine ⟨⟨q1, q2, q3, by simpa using q4⟩, ?_⟩
        rw [List.getElem?_mapIdx, List.getElem?_eq_getElem (show c.toNat < x.1.cols.length by omega)]
        have : ((c.toNat : Nat) : Int) = c := by omega
        simp [this]
    · cases f1
  · cases f1

/-- Two labels, a repetition, and a conversion. -/
example : (do
      let x ← dfRun (fun _ => []) dfAlloc [.addColumn .factor (bytesOf "f"), .addColumn .string (bytesOf "s"),
        .appendRow [.str (bytesOf "b"), .str (bytesOf "u")], .appendRow [.str (bytesOf "a"), .str (bytesOf "v")],
        .appendRow [.str (bytesOf "b"), .str (bytesOf "u")], .makeFactor 1]
      pure (x.1.cols.map DCol.levels) : Res (List (List Bytes))) =
    .ok [[bytesOf "b", bytesOf "a"], [bytesOf "u", bytesOf "v"]] := by decide +kernel

end Nx
