import Verif.Model.CsvMem
import Verif.Props.DataFrameMem

/-!
# C112: memory of CSV parsing
-/

namespace Nx

/-- The blocks of a field. -/
def cmFieldPtrs (f : CMField) : List Nat := [f.self] ++ f.text.toList

/-- The blocks of a record. -/
def cmRecPtrs (r : CMRec) : List Nat := [r.self] ++ r.arr.toList ++ r.fields.flatMap cmFieldPtrs

/-- The blocks of the parsed data. -/
def cmDataPtrs (d : CMData) : List Nat := [d.self] ++ d.arr.toList ++ d.recs.flatMap cmRecPtrs

/-- The blocks of a parser. -/
def cmParPtrs (p : CMPar) : List Nat := [p.self, p.tok] ++ p.text.toList

/-- A parser has the text of its token if that is a field. -/
def TokFits (p : CMPar) (ts : List CMTok) : Prop := ∀ t rest, ts = .field t :: rest → p.text ≠ none

/-- The fields of a record fit. -/
def CMRecWf (r : CMRec) : Prop := ArrFits r.arr r.cap r.fields.length

theorem cmConsume_ok {σ : Mem} {p : CMPar} {l : List Nat} (ts : List CMTok) (h : Owns σ (cmParPtrs p ++ l)) :
    ∃ σ' p', cmConsume σ p ts = .ok (σ', p') ∧ Owns σ' (cmParPtrs p' ++ l) ∧ TokFits p' ts := by
  obtain ⟨σ1, e1, h1⟩ := freeOpt_owns (d := p.text) (l := [p.self, p.tok] ++ l) (h.swap (by
    intro q
    simp only [cmParPtrs, List.count_append]
    omega))
  have key : ∃ σ2 t, cmTokText σ1 ts = (σ2, t) ∧ Owns σ2 (t.toList ++ ([p.self, p.tok] ++ l)) ∧
      TokFits { p with text := t } ts := by
    cases ts with
    | nil => exact ⟨σ1, none, rfl, h1, by simp [TokFits]⟩
    | cons t ts =>
      cases t with
      | eor => exact ⟨σ1, none, rfl, h1, by simp [TokFits]⟩
      | comma => exact ⟨σ1, none, rfl, h1, by simp [TokFits]⟩
      | field t => exact ⟨_, _, rfl, alloc_owns h1, by simp [TokFits]⟩
  obtain ⟨σ2, t, e2, h2, w2⟩ := key
  refine ⟨σ2, { p with text := t }, ?_, h2.swap ?_, w2⟩
  · rw [cmConsume, use_ok h (by simp [cmParPtrs]), Res.ok_bind, use_ok h (by simp [cmParPtrs]), Res.ok_bind, e1,
      Res.ok_bind]
    simp only [e2]
    rfl
  · intro q
    simp only [cmParPtrs, List.count_append]
    omega

theorem cmParserNew_ok {σ : Mem} {l : List Nat} (ts : List CMTok) (h : Owns σ l) :
    ∃ σ' p', cmParserNew σ ts = .ok (σ', p') ∧ Owns σ' (cmParPtrs p' ++ l) ∧ TokFits p' ts := by
  refine cmConsume_ok ts ((alloc_owns (alloc_owns h)).swap ?_)
  intro q
  simp only [cmParPtrs, List.count_append, List.count_cons, List.count_nil, Option.toList_none]
  omega

theorem cmParserFree_ok {σ : Mem} {p : CMPar} {l : List Nat} (h : Owns σ (cmParPtrs p ++ l)) :
    ∃ σ', cmParserFree σ p = .ok σ' ∧ Owns σ' l := by
  obtain ⟨σ1, e1, h1⟩ := freeOpt_owns (d := p.text) (l := p.tok :: p.self :: l) (h.swap (by
    intro q
    simp only [cmParPtrs, List.count_append, List.count_cons, List.count_nil]
    omega))
  obtain ⟨σ2, e2, h2⟩ := free_owns h1
  obtain ⟨σ3, e3, h3⟩ := free_owns h2
  exact ⟨σ3, by
    rw [cmParserFree, use_ok h (by simp [cmParPtrs]), Res.ok_bind, use_ok h (by simp [cmParPtrs]), Res.ok_bind, e1,
      Res.ok_bind, e2, Res.ok_bind, e3], h3⟩

theorem cmAddField_ok {σ : Mem} {r : CMRec} {f : CMField} {l : List Nat} (hw : CMRecWf r)
    (h : Owns σ (cmFieldPtrs f ++ (cmRecPtrs r ++ l))) :
    ∃ σ' r', cmAddField σ r f = .ok (σ', r') ∧ Owns σ' (cmRecPtrs r' ++ l) ∧ CMRecWf r' ∧
      r'.fields.length = r.fields.length + 1 := by
  obtain ⟨σ1, a1, c1, e1, h1, w1⟩ := memEnsure_ok (r.fields.length + 1) (arr := r.arr)
    (l := r.self :: (cmFieldPtrs f ++ (r.fields.flatMap cmFieldPtrs ++ l))) (h.swap (by
      intro q
      simp only [cmRecPtrs, List.count_append, List.count_cons, List.count_nil]
      omega)) hw
  have hu := slotUse_ok h1 w1 (Nat.lt_succ_self _) (by intro p hp; exact List.mem_append_left _ hp)
  refine ⟨σ1, { r with arr := a1, cap := c1, fields := r.fields ++ [f] }, ?_, h1.swap ?_, by simpa [CMRecWf] using w1,
    by simp⟩
  · rw [cmAddField, use_ok h (by simp [cmRecPtrs]), Res.ok_bind, e1, Res.ok_bind]
    simp only
    rw [hu]
    rfl
  · intro q
    simp only [cmRecPtrs, List.count_append, List.count_cons, List.count_nil, List.flatMap_append, List.flatMap_cons,
      List.flatMap_nil]
    omega

theorem cmAddNull_ok {σ : Mem} {r : CMRec} {l : List Nat} (hw : CMRecWf r) (h : Owns σ (cmRecPtrs r ++ l)) :
    ∃ σ' r', cmAddNull σ r = .ok (σ', r') ∧ Owns σ' (cmRecPtrs r' ++ l) ∧ CMRecWf r' ∧
      r'.fields.length = r.fields.length + 1 :=
  cmAddField_ok hw ((alloc_owns h).swap (by
    intro q
    simp only [cmFieldNull, cmFieldPtrs, List.count_append, List.count_cons, List.count_nil, Option.toList_none]
    omega))

theorem cmAddTok_ok {σ : Mem} {p : CMPar} {r : CMRec} {l : List Nat} (t : DCT) (hw : CMRecWf r) (hp : p.text ≠ none)
    (h : Owns σ (cmRecPtrs r ++ (cmParPtrs p ++ l))) :
    ∃ σ' r', cmAddTok σ p r t = .ok (σ', r') ∧ Owns σ' (cmRecPtrs r' ++ (cmParPtrs p ++ l)) ∧ CMRecWf r' ∧
      r'.fields.length = r.fields.length + 1 := by
  have h0 := alloc_owns h
  obtain ⟨σ1, d, e1, h1, -⟩ := strdup_owns (s := MSrc.of p.text) (by
      cases hpt : p.text with
      | none => exact absurd hpt hp
      | some x => simp [MSrc.of]) h0 (srcOf_mem (by intro q hq; simp at hq; simp [cmParPtrs, hq]))
  obtain ⟨σ2, r2, e2, h2, w2, n2⟩ := cmAddField_ok (f := ⟨(memAlloc σ).2, d, t⟩) hw (l := cmParPtrs p ++ l) (h1.swap (by
    intro q
    simp only [cmFieldPtrs, List.count_append, List.count_cons, List.count_nil]
    omega))
  refine ⟨σ2, r2, ?_, h2, w2, n2⟩
  rw [cmAddTok, cmFieldNew]
  rw [use_ok h0 (by simp [cmParPtrs]), Res.ok_bind, e1, Res.ok_bind, Res.pure_eq, Res.ok_bind]
  exact e2

/-- A step of the parser ends the program, or it is defined and leaves the blocks of the record and the parser. -/
def RecOk (l : List Nat) (n : Nat) (x : Res (Mem × CMPar × CMRec × List CMTok)) : Prop :=
  x = .fatal ∨ ∃ σ p r ts, x = .ok (σ, p, r, ts) ∧ Owns σ (cmRecPtrs r ++ (cmParPtrs p ++ l)) ∧ CMRecWf r ∧
    TokFits p ts ∧ ts.length ≤ n ∧ 0 < r.fields.length

theorem cmRecLoop_ok {σ : Mem} {p : CMPar} {r : CMRec} {l : List Nat} (n : Nat) (ts : List CMTok) (hn : ts.length ≤ n)
    (hw : CMRecWf r) (hp : TokFits p ts) (hr : 0 < r.fields.length) (h : Owns σ (cmRecPtrs r ++ (cmParPtrs p ++ l))) :
    RecOk l n (cmRecLoop σ p r ts) := by
  induction n generalizing σ p r ts with
  | zero =>
    cases ts with
    | nil => exact Or.inr ⟨σ, p, r, [], by rw [cmRecLoop], h, hw, hp, by simp, hr⟩
    | cons t ts => simp at hn
  | succ n ih =>
    have lift : ∀ x, RecOk l n x → RecOk l (n + 1) x := by
      rintro x (hx | ⟨a, b, c, d, e1, e2, e3, e4, e5, e6⟩)
      · exact Or.inl hx
      · exact Or.inr ⟨a, b, c, d, e1, e2, e3, e4, by omega, e6⟩
    cases ts with
    | nil => exact Or.inr ⟨σ, p, r, [], by rw [cmRecLoop], h, hw, hp, by simp, hr⟩
    | cons t ts =>
      rw [List.length_cons] at hn
      have hn : ts.length ≤ n := by omega
      have h' : Owns σ (cmParPtrs p ++ (cmRecPtrs r ++ l)) := h.swap (by
        intro q
        simp only [List.count_append]
        omega)
      cases t with
      | eor => exact Or.inr ⟨σ, p, r, _, by rw [cmRecLoop], h, hw, hp, by simp; omega, hr⟩
      | field t => exact Or.inl (by rw [cmRecLoop])
      | comma =>
        obtain ⟨σ1, p1, e1, h1, w1⟩ := cmConsume_ok ts h'
        have h1' : Owns σ1 (cmRecPtrs r ++ (cmParPtrs p1 ++ l)) := h1.swap (by
          intro q
          simp only [List.count_append]
          omega)
        by_cases hf : ∃ t ts', ts = .field t :: ts'
        · obtain ⟨t, ts, rfl⟩ := hf
          obtain ⟨σ2, r2, e2, h2, w2, n2⟩ := cmAddTok_ok t hw (w1 t ts rfl) h1'
          obtain ⟨σ3, p3, e3, h3, w3⟩ := cmConsume_ok (p := p1) ts (l := cmRecPtrs r2 ++ l) (h2.swap (by
            intro q
            simp only [List.count_append]
            omega))
          rw [cmRecLoop, e1, Res.ok_bind]
          simp only
          rw [e2, Res.ok_bind]
          simp only
          rw [e3, Res.ok_bind]
          refine lift _ (ih (r := r2) (p := p3) ts ?_ w2 w3 (by omega) (h3.swap ?_))
          · simp at hn
            omega
          · intro q
            simp only [List.count_append]
            omega
        · obtain ⟨σ2, r2, e2, h2, w2, n2⟩ := cmAddNull_ok hw h1'
          rw [cmRecLoop, e1, Res.ok_bind]
          · simp only
            rw [e2, Res.ok_bind]
            exact lift _ (ih (r := r2) (p := p1) ts hn w2 w1 (by omega) h2)
          · intro t ts' hts
            exact hf ⟨t, ts', hts⟩

theorem cmRecFirst_ok {σ : Mem} {p : CMPar} {r : CMRec} {l : List Nat} (ts : List CMTok) (hne : ts ≠ [])
    (hw : CMRecWf r) (hp : TokFits p ts) (h : Owns σ (cmRecPtrs r ++ (cmParPtrs p ++ l))) :
    cmRecFirst σ p r ts = .fatal ∨
      ∃ σ' p' r' ts', cmRecFirst σ p r ts = .ok (σ', p', r', ts') ∧ Owns σ' (cmRecPtrs r' ++ (cmParPtrs p' ++ l)) ∧
        CMRecWf r' ∧ TokFits p' ts' ∧ 0 < r'.fields.length ∧
        (ts'.length < ts.length ∨ ∃ ts'', ts = .comma :: ts'' ∧ ts' = ts) := by
  cases ts with
  | nil => exact absurd rfl hne
  | cons t ts =>
    cases t with
    | eor => exact Or.inl rfl
    | comma =>
      obtain ⟨σ2, r2, e2, h2, w2, n2⟩ := cmAddNull_ok hw h
      exact Or.inr ⟨σ2, p, r2, _, by rw [cmRecFirst, e2]; rfl, h2, w2, hp, by omega, Or.inr ⟨ts, rfl, rfl⟩⟩
    | field t =>
      obtain ⟨σ2, r2, e2, h2, w2, n2⟩ := cmAddTok_ok t hw (hp t ts rfl) h
      obtain ⟨σ3, p3, e3, h3, w3⟩ := cmConsume_ok (p := p) ts (l := cmRecPtrs r2 ++ l) (h2.swap (by
        intro q
        simp only [List.count_append]
        omega))
      refine Or.inr ⟨σ3, p3, r2, ts, ?_, h3.swap ?_, w2, w3, by omega, Or.inl (by simp)⟩
      · rw [cmRecFirst, e2, Res.ok_bind]
        simp only
        rw [e3]
        rfl
      · intro q
        simp only [List.count_append]
        omega

theorem cmRecLoop_comma {σ : Mem} {p : CMPar} {r : CMRec} {l : List Nat} (ts : List CMTok)
    (hw : CMRecWf r) (hr : 0 < r.fields.length) (h : Owns σ (cmRecPtrs r ++ (cmParPtrs p ++ l))) :
    RecOk l ts.length (cmRecLoop σ p r (.comma :: ts)) := by
  have h' : Owns σ (cmParPtrs p ++ (cmRecPtrs r ++ l)) := h.swap (by
    intro q
    simp only [List.count_append]
    omega)
  obtain ⟨σ1, p1, e1, h1, w1⟩ := cmConsume_ok ts h'
  have h1' : Owns σ1 (cmRecPtrs r ++ (cmParPtrs p1 ++ l)) := h1.swap (by
    intro q
    simp only [List.count_append]
    omega)
  by_cases hf : ∃ t ts', ts = .field t :: ts'
  · obtain ⟨t, ts, rfl⟩ := hf
    obtain ⟨σ2, r2, e2, h2, w2, n2⟩ := cmAddTok_ok t hw (w1 t ts rfl) h1'
    obtain ⟨σ3, p3, e3, h3, w3⟩ := cmConsume_ok (p := p1) ts (l := cmRecPtrs r2 ++ l) (h2.swap (by
      intro q
      simp only [List.count_append]
      omega))
    rw [cmRecLoop, e1, Res.ok_bind]
    simp only
    rw [e2, Res.ok_bind]
    simp only
    rw [e3, Res.ok_bind]
    refine cmRecLoop_ok (r := r2) (p := p3) _ ts (by simp) w2 w3 (by omega) (h3.swap ?_)
    intro q
    simp only [List.count_append]
    omega
  · obtain ⟨σ2, r2, e2, h2, w2, n2⟩ := cmAddNull_ok hw h1'
    rw [cmRecLoop, e1, Res.ok_bind]
    · simp only
      rw [e2, Res.ok_bind]
      exact cmRecLoop_ok (r := r2) (p := p1) _ ts (Nat.le_refl _) w2 w1 (by omega) h2
    · intro t ts' hts
      exact hf ⟨t, ts', hts⟩

/-- The records of the data fit and each has as many fields as there are columns. -/
structure CMDataWf (d : CMData) : Prop where
  arr : ArrFits d.arr d.cap d.recs.length
  recs : ∀ r ∈ d.recs, CMRecWf r ∧ r.fields.length = d.nCols
  cols : d.recs ≠ [] → 0 < d.nCols

theorem cmParseRecord_ok {σ : Mem} {p : CMPar} {d : CMData} {l : List Nat} (ts : List CMTok) (hne : ts ≠ [])
    (hw : CMDataWf d) (hp : TokFits p ts) (h : Owns σ (cmDataPtrs d ++ (cmParPtrs p ++ l))) :
    cmParseRecord σ p d ts = .fatal ∨
      ∃ σ' p' r d' ts', cmParseRecord σ p d ts = .ok (σ', p', d', ts') ∧
        Owns σ' (cmDataPtrs d' ++ (cmParPtrs p' ++ l)) ∧ CMRecWf r ∧ TokFits p' ts' ∧ 0 < r.fields.length ∧
        ts'.length < ts.length ∧ d'.recs = d.recs ++ [r] ∧ d'.nCols = d.nCols ∧
        ArrFits d'.arr d'.cap (d.recs.length + 1) := by
  have h0 := alloc_owns h
  obtain ⟨σ1, a1, c1, e1, h1, w1⟩ := memEnsure_ok (d.recs.length + 1) (arr := d.arr)
    (l := cmRecPtrs ⟨(memAlloc σ).2, none, 0, []⟩ ++ (cmParPtrs p ++ (d.self :: d.recs.flatMap cmRecPtrs ++ l)))
    (h0.swap (by
      intro q
      simp only [cmDataPtrs, cmRecPtrs, List.count_append, List.count_cons, List.count_nil, Option.toList_none,
        List.flatMap_nil]
      omega)) hw.arr
  have hu := slotUse_ok h1 w1 (Nat.lt_succ_self _) (by intro p hp; exact List.mem_append_left _ hp)
  have hnew : cmRecNew σ d = .ok (σ1, { d with arr := a1, cap := c1 }, ⟨(memAlloc σ).2, none, 0, []⟩) := by
    rw [cmRecNew]
    rw [use_ok h0 (by simp [cmDataPtrs]), Res.ok_bind, e1, Res.ok_bind]
    simp only
    rw [hu]
    rfl
  rw [cmParseRecord, hnew, Res.ok_bind]
  simp only
  have h1' : Owns σ1 (cmRecPtrs ⟨(memAlloc σ).2, none, 0, []⟩ ++ (cmParPtrs p ++
      (a1.toList ++ (d.self :: d.recs.flatMap cmRecPtrs ++ l)))) := h1.swap (by
    intro q
    simp only [List.count_append]
    omega)
  rcases cmRecFirst_ok ts hne ⟨by simp, by simp⟩ hp h1' with e2 | ⟨σ2, p2, r2, ts2, e2, h2, w2, t2, n2, s2⟩
  · left
    rw [e2]
    rfl
  · rw [e2, Res.ok_bind]
    simp only
    have hloop : RecOk (a1.toList ++ (d.self :: d.recs.flatMap cmRecPtrs ++ l)) (ts.length - 1)
        (cmRecLoop σ2 p2 r2 ts2) := by
      rcases s2 with s2 | ⟨ts', rfl, rfl⟩
      · exact cmRecLoop_ok _ ts2 (by omega) w2 t2 n2 h2
      · exact cmRecLoop_comma ts' w2 n2 h2
    have hpos : 0 < ts.length := List.length_pos_iff.mpr hne
    rcases hloop with e3 | ⟨σ3, p3, r3, ts3, e3, h3, w3, t3, s3, n3⟩
    · left
      rw [e3]
      rfl
    · right
      rw [e3, Res.ok_bind]
      simp only
      have hend : ∃ σ4 p4 ts4, cmRecEnd σ3 p3 ts3 = .ok (σ4, p4, ts4) ∧
          Owns σ4 (cmRecPtrs r3 ++ (cmParPtrs p4 ++ (a1.toList ++ (d.self :: d.recs.flatMap cmRecPtrs ++ l)))) ∧
          TokFits p4 ts4 ∧ ts4.length ≤ ts3.length := by
        by_cases he : ∃ ts', ts3 = .eor :: ts'
        · obtain ⟨ts', rfl⟩ := he
          obtain ⟨σ4, p4, e4, h4, w4⟩ := cmConsume_ok (p := p3) ts'
            (l := cmRecPtrs r3 ++ (a1.toList ++ (d.self :: d.recs.flatMap cmRecPtrs ++ l))) (h3.swap (by
              intro q
              simp only [List.count_append]
              omega))
          refine ⟨σ4, p4, ts', by rw [cmRecEnd, e4]; rfl, h4.swap ?_, w4, by simp⟩
          intro q
          simp only [List.count_append]
          omega
        · refine ⟨σ3, p3, ts3, ?_, h3, t3, Nat.le_refl _⟩
          rw [cmRecEnd]
          intro ts' hts
          exact he ⟨ts', hts⟩
      obtain ⟨σ4, p4, ts4, e4, h4, t4, s4⟩ := hend
      refine ⟨σ4, p4, r3, { d with arr := a1, cap := c1, recs := d.recs ++ [r3] }, ts4, by rw [e4]; rfl, h4.swap ?_, w3,
        t4, n3, by omega, rfl, rfl, w1⟩
      intro q
      simp only [cmDataPtrs, List.count_append, List.count_cons, List.count_nil, List.flatMap_append, List.flatMap_cons,
        List.flatMap_nil]
      omega

theorem cmParseLoop_ok {σ : Mem} {p : CMPar} {d : CMData} {l : List Nat} (fuel : Nat) (ts : List CMTok)
    (hf : ts.length ≤ fuel) (hw : CMDataWf d) (hp : TokFits p ts) (h : Owns σ (cmDataPtrs d ++ (cmParPtrs p ++ l))) :
    cmParseLoop fuel σ p d ts = .fatal ∨
      ∃ σ' p' d', cmParseLoop fuel σ p d ts = .ok (σ', p', d') ∧ Owns σ' (cmDataPtrs d' ++ (cmParPtrs p' ++ l)) ∧
        CMDataWf d' := by
  induction fuel generalizing σ p d ts with
  | zero =>
    cases ts with
    | nil => exact Or.inr ⟨σ, p, d, by rw [cmParseLoop], h, hw⟩
    | cons t ts => simp at hf
  | succ fuel ih =>
    cases ts with
    | nil => exact Or.inr ⟨σ, p, d, by rw [cmParseLoop], h, hw⟩
    | cons t ts =>
      rw [cmParseLoop]
      rcases cmParseRecord_ok (t :: ts) (by simp) hw hp h with e | ⟨σ1, p1, r, d1, ts1, e, h1, w1, t1, n1, s1, r1, c1, a1⟩
      · left
        rw [e]
        rfl
      · rw [e, Res.ok_bind]
        simp only
        have hd1 : ∀ m, r.fields.length = m → (d.recs = [] ∨ d.nCols = m) →
            CMDataWf { d1 with nCols := m } := by
          intro m hm hc
          refine ⟨by simpa [r1] using a1, ?_, fun _ => by simp; omega⟩
          intro x hx
          simp only [r1, List.mem_append, List.mem_singleton] at hx
          rcases hx with hx | rfl
          · refine ⟨(hw.recs x hx).1, ?_⟩
            rcases hc with hc | hc
            · rw [hc] at hx
              cases hx
            · simp only
              rw [(hw.recs x hx).2, hc]
          · exact ⟨w1, hm⟩
        have hlast : d1.recs.getLast? = some r := by rw [r1]; simp
        rw [cmCheckCols, hlast]
        simp only
        rw [List.length_cons] at hf s1
        by_cases h0 : d1.nCols = 0
        · rw [if_pos h0, Res.ok_bind]
          refine ih ts1 (by omega) (hd1 _ rfl ?_) t1 h1
          left
          by_cases he : d.recs = []
          · exact he
          · have := hw.cols he
            omega
        · rw [if_neg h0]
          by_cases hm : r.fields.length ≠ d1.nCols
          · left
            rw [if_pos hm]
            rfl
          · rw [if_neg hm, Res.ok_bind]
            refine ih ts1 (by omega) ?_ t1 h1
            have := hd1 d1.nCols (by omega) (Or.inr c1.symm)
            simpa using this

theorem cmFieldAt_ok {σ : Mem} {r : CMRec} {l : List Nat} {c : Nat} (hw : CMRecWf r) (hc : c < r.fields.length)
    (hl : ∀ q ∈ cmRecPtrs r, q ∈ l) (h : Owns σ l) : cmFieldAt σ r c = .ok r.fields[c] := by
  have hf : r.fields[c].self ∈ l := hl _ (by
    simp only [cmRecPtrs, List.mem_append, List.mem_flatMap]
    exact Or.inr ⟨_, List.getElem_mem hc, by simp [cmFieldPtrs]⟩)
  rw [cmFieldAt, use_ok h (hl _ (by simp [cmRecPtrs])), Res.ok_bind,
    slotUse_ok h hw hc (by intro p hp; exact hl p (by simp at hp; simp [cmRecPtrs, hp])), Res.ok_bind, readAt_ok hc,
    Res.ok_bind, use_ok h hf]
  rfl

theorem fieldText_mem {r : CMRec} {l : List Nat} {c p : Nat} (hc : c < r.fields.length)
    (hl : ∀ q ∈ cmRecPtrs r, q ∈ l) (hp : r.fields[c].text = some p) : p ∈ l :=
  hl p (by
    simp only [cmRecPtrs, List.mem_append, List.mem_flatMap]
    exact Or.inr ⟨_, List.getElem_mem hc, by simp [cmFieldPtrs, hp]⟩)

theorem cmTypesRow_ok {σ : Mem} {r : CMRec} {l : List Nat} {ct set : Nat} (hw : CMRecWf r)
    (hl : ∀ q ∈ cmRecPtrs r, q ∈ l) (h : Owns σ l) (hct : ct ∈ l) (hset : set ∈ l) (c : Nat) (ts : List (Option DCT))
    (hc : c + ts.length ≤ r.fields.length) :
    ∃ ts', cmTypesRow σ ct set r c ts = .ok ts' ∧ ts'.length = ts.length := by
  induction ts generalizing c with
  | nil => exact ⟨[], rfl, rfl⟩
  | cons t ts ih =>
    rw [List.length_cons] at hc
    obtain ⟨ts', e, n⟩ := ih (c + 1) (by omega)
    refine ⟨cmTypeStep t r.fields[c] :: ts', ?_, by simp [n]⟩
    · rw [cmTypesRow, cmFieldAt_ok hw (by omega) hl h, Res.ok_bind, use_ok h hct, Res.ok_bind, use_ok h hset,
        Res.ok_bind, e]
      rfl

theorem cmTypesRows_ok {σ : Mem} {d : CMData} {l : List Nat} {ct set n m : Nat} (ha : ArrFits d.arr d.cap n)
    (hp : ∀ p ∈ d.arr.toList, p ∈ l) (h : Owns σ l) (hct : ct ∈ l) (hset : set ∈ l) (i : Nat) (rs : List CMRec)
    (hi : i + rs.length ≤ n) (hw : ∀ r ∈ rs, CMRecWf r ∧ r.fields.length = m) (hl : ∀ r ∈ rs, ∀ q ∈ cmRecPtrs r, q ∈ l)
    (ts : List (Option DCT)) (hm : ts.length = m) :
    ∃ ts', cmTypesRows σ d ct set i rs ts = .ok ts' ∧ ts'.length = m := by
  induction rs generalizing i ts with
  | nil => exact ⟨ts, rfl, hm⟩
  | cons r rs ih =>
    rw [List.length_cons] at hi
    obtain ⟨w, n1⟩ := hw r (by simp)
    obtain ⟨ts1, e1, m1⟩ := cmTypesRow_ok w (hl r (by simp)) h hct hset 0 ts (by omega)
    obtain ⟨ts2, e2, m2⟩ := ih (i + 1) (by omega) (fun x hx => hw x (by simp [hx])) (fun x hx => hl x (by simp [hx]))
      ts1 (by omega)
    exact ⟨ts2, by rw [cmTypesRows, slotUse_ok h ha (i := i) (by omega) hp, Res.ok_bind, e1, Res.ok_bind, e2], m2⟩

theorem rec_data {d : CMData} {r : CMRec} (hr : r ∈ d.recs) : ∀ q ∈ cmRecPtrs r, q ∈ cmDataPtrs d := by
  intro q hq
  simp only [cmDataPtrs, List.mem_append, List.mem_flatMap]
  exact Or.inr ⟨r, hr, hq⟩

theorem cmColumnTypes_ok {σ : Mem} {d : CMData} {l : List Nat} (hw : CMDataWf d) (hne : d.recs ≠ [])
    (h : Owns σ (cmDataPtrs d ++ l)) :
    ∃ σ' ct ts, cmColumnTypes σ d = .ok (σ', ct, ts) ∧ Owns σ' (ct :: (cmDataPtrs d ++ l)) ∧ ts.length = d.nCols := by
  have h1 := alloc_owns h
  have h2 := alloc_owns h1
  have hpos : 0 < d.recs.length := List.length_pos_iff.mpr hne
  obtain ⟨ts, e, n⟩ := cmTypesRows_ok (ct := (memAlloc σ).2) (set := (memAlloc (memAlloc σ).1).2) (m := d.nCols) hw.arr
    (by intro p hp; simp at hp; simp [cmDataPtrs, hp]) h2 (by simp) (by simp) 1 (d.recs.drop 1)
    (by rw [List.length_drop]; omega) (fun r hr => hw.recs r (List.mem_of_mem_drop hr))
    (fun r hr q hq => by simp [rec_data (List.mem_of_mem_drop hr) q hq]) (List.replicate d.nCols none) (by simp)
  obtain ⟨σ3, e3, h3⟩ := free_owns h2
  refine ⟨σ3, (memAlloc σ).2, ts.map (fun t => t.getD .string), ?_, h3, by simp [n]⟩
  rw [cmColumnTypes]
  rw [e, Res.ok_bind, e3]
  rfl

theorem cmLabels_ok {σ : Mem} {df : DMFrame} {r : CMRec} {l : List Nat} {ct : Nat} (hw : CMRecWf r)
    (hl : ∀ q ∈ cmRecPtrs r, q ∈ l) (hct : ct ∈ l) (hf : FrameWf df) (i : Nat) (ts : List DCT)
    (hi : i + ts.length ≤ r.fields.length) (h : Owns σ (framePtrs df ++ l)) :
    ∃ σ' df', cmLabels ct r i σ df ts = .ok (σ', df') ∧ Owns σ' (framePtrs df' ++ l) ∧ FrameWf df' ∧
      df'.cols.length = df.cols.length + ts.length ∧ df'.nRows = df.nRows := by
  induction ts generalizing σ df i with
  | nil => exact ⟨σ, df, rfl, h, hf, by simp, rfl⟩
  | cons t ts ih =>
    rw [List.length_cons] at hi
    have hc : i < r.fields.length := by omega
    have hl' : ∀ q ∈ cmRecPtrs r, q ∈ framePtrs df ++ l := fun q hq => List.mem_append_right _ (hl q hq)
    obtain ⟨σ1, df1, e1, h1, w1, n1, m1⟩ := dmAddColumn_ok (type := t) (s := cmLabel r.fields[i].text) hf
      (by unfold cmLabel; split <;> simp) h (by
        intro p hp
        cases ht : r.fields[i].text with
        | none =>
          rw [ht] at hp
          cases hp
        | some p' =>
          rw [ht] at hp
          cases hp
          exact fieldText_mem hc hl' ht)
    obtain ⟨σ2, df2, e2, h2, w2, n2, m2⟩ := ih w1 (i + 1) (by omega) h1
    refine ⟨σ2, df2, ?_, h2, w2, by rw [n2, n1, List.length_cons]; omega, by rw [m2, m1]⟩
    rw [cmLabels, cmFieldAt_ok hw hc hl' h, Res.ok_bind, use_ok h (List.mem_append_right _ hct), Res.ok_bind, e1,
      Res.ok_bind, e2]

theorem cmSetCell_ok {σ : Mem} {df : DMFrame} {l : List Nat} {i c p : Nat} (k : Nat) (hf : FrameWf df)
    (hi : i < df.nRows) (hc : c < df.cols.length) (hp : p ∈ l) (h : Owns σ (framePtrs df ++ l)) :
    ∃ σ' dc', cmSetCell σ df i c k p df.cols[c].type = .ok (σ', { df with cols := df.cols.set c dc' }) ∧
      Owns σ' (framePtrs { df with cols := df.cols.set c dc' } ++ l) ∧
      FrameWf { df with cols := df.cols.set c dc' } := by
  have hcw := hf.cols _ (List.getElem_mem hc)
  have plain : ∀ t, df.cols[c].type = t →
      ∃ σ' dc', dmSetPlain σ df t i c = .ok (σ', { df with cols := df.cols.set c dc' }) ∧
      Owns σ' (framePtrs { df with cols := df.cols.set c dc' } ++ l) ∧
      FrameWf { df with cols := df.cols.set c dc' } := by
    intro t ht
    obtain ⟨σ', dc', e, h', w', -⟩ := dmAt_ok (op := dmColSetPlain t i) hf hi hc h (by
      intro rest e1 _ _
      exact dmColSetPlain_ok hcw hi ht (h.swap e1))
    exact ⟨σ', dc', e, h', w'⟩
  have hu : memUse σ p = .ok () := use_ok h (List.mem_append_right _ hp)
  cases ht : df.cols[c].type with
  | string =>
    obtain ⟨σ', dc', e, h', w', -⟩ := dmAt_ok (op := dmColSetString (.ptr p) i) hf hi hc h (by
      intro rest e1 _ e3
      refine dmColSetString_ok hcw hi ht (by simp) (h.swap e1) ?_
      rintro q ⟨⟩
      refine ⟨List.mem_append_right _ (e3 _ hp), ?_⟩
      intro he
      have h1 := h.once p
      rw [h.same p, e1 p, List.count_append] at h1
      have h2 : 0 < List.count p rest := List.count_pos_iff.mpr (e3 _ hp)
      have h3 : 0 < List.count p (colPtrs df.cols[c]) := by
        rw [List.count_pos_iff]
        simp only [colPtrs, List.mem_append, List.mem_flatMap]
        exact Or.inl (Or.inr ⟨some p, List.mem_of_getElem? he, by simp⟩)
      omega)
    refine ⟨σ', dc', ?_, h', w'⟩
    rw [cmSetCell, dmSetString, if_neg (by simp), e]
  | int =>
    obtain ⟨σ', dc', e, h', w'⟩ := plain _ ht
    exact ⟨σ', dc', by rw [cmSetCell, hu, Res.ok_bind, e], h', w'⟩
  | double =>
    obtain ⟨σ', dc', e, h', w'⟩ := plain _ ht
    exact ⟨σ', dc', by rw [cmSetCell, hu, Res.ok_bind, e], h', w'⟩
  | bool =>
    obtain ⟨σ', dc', e, h', w'⟩ := plain _ ht
    exact ⟨σ', dc', by rw [cmSetCell, hu, Res.ok_bind, e], h', w'⟩
  | factor =>
    obtain ⟨σ', dc', e, h', w', -⟩ := dmSetFactor_ok (s := .ptr p) k hf hi hc ht (by simp)
      (by rintro q ⟨⟩; exact List.mem_append_right _ hp) h
    exact ⟨σ', dc', e, h', w'⟩

theorem cmSetField_ok {σ : Mem} {df : DMFrame} {l : List Nat} {i c : Nat} {f : CMField} (hf : FrameWf df)
    (hi : i < df.nRows) (hc : c < df.cols.length) (hp : ∀ p, f.text = some p → p ∈ l)
    (h : Owns σ (framePtrs df ++ l)) :
    ∃ σ' dc', cmSetField σ df i c f = .ok (σ', { df with cols := df.cols.set c dc' }) ∧
      Owns σ' (framePtrs { df with cols := df.cols.set c dc' } ++ l) ∧
      FrameWf { df with cols := df.cols.set c dc' } := by
  unfold cmSetField
  cases ht : f.text with
  | none =>
    obtain ⟨σ', dc', e, h', w', -⟩ := dmAt_ok (op := fun σ dc => dmNa σ dc i) hf hi hc h (by
      intro rest e1 _ _
      obtain ⟨σ', dc', a1, a2, a3, -, a5⟩ := dmNa_ok (hf.cols _ (List.getElem_mem hc)) hi (h.swap e1)
      exact ⟨σ', dc', a1, a2, a3, by rw [a5]⟩)
    exact ⟨σ', dc', e, h', w'⟩
  | some p =>
    obtain ⟨σ', dc', e, h', w'⟩ := cmSetCell_ok 0 hf hi hc (hp p ht) h
    refine ⟨σ', dc', ?_, h', w'⟩
    simp only
    rw [dmColAt_ok hf hc h, Res.ok_bind, use_ok h, Res.ok_bind, e]
    simp only [framePtrs, List.mem_append, List.mem_flatMap]
    exact Or.inl (Or.inr ⟨_, List.getElem_mem hc, by simp [colPtrs]⟩)

theorem cmFillRow_ok {σ : Mem} {df : DMFrame} {l : List Nat} {i : Nat} {r : CMRec} (hw : CMRecWf r)
    (hl : ∀ q ∈ cmRecPtrs r, q ∈ l) (hf : FrameWf df) (hi : i < df.nRows) (c n : Nat)
    (hc : c + n ≤ r.fields.length) (hn : c + n ≤ df.cols.length) (h : Owns σ (framePtrs df ++ l)) :
    ∃ σ' df', cmFillRow r i c n σ df = .ok (σ', df') ∧ Owns σ' (framePtrs df' ++ l) ∧ FrameWf df' ∧
      df'.cols.length = df.cols.length ∧ df'.nRows = df.nRows := by
  induction n generalizing σ df c with
  | zero => exact ⟨σ, df, rfl, h, hf, rfl, rfl⟩
  | succ n ih =>
    have hc' : c < r.fields.length := by omega
    obtain ⟨σ1, dc1, e1, h1, w1⟩ := cmSetField_ok (f := r.fields[c]) hf hi (c := c) (by omega)
      (fun p hp => fieldText_mem hc' hl hp) h
    obtain ⟨σ2, df2, e2, h2, w2, n2, m2⟩ := ih (df := { df with cols := df.cols.set c dc1 }) w1 hi (c + 1) (by omega)
      (by simp; omega) h1
    refine ⟨σ2, df2, ?_, h2, w2, by simpa using n2, m2⟩
    rw [cmFillRow, cmFieldAt_ok hw hc' (fun q hq => List.mem_append_right _ (hl q hq)) h, Res.ok_bind, e1, Res.ok_bind,
      e2]

theorem dmAddRow_full {σ : Mem} {df : DMFrame} {l : List Nat} (hw : FrameWf df)
    (hv : ¬ (df.cols = [] ∨ df.nRows < 2147483647)) (h : Owns σ (framePtrs df ++ l)) : dmAddRow σ df = .fatal :=
  c111_refused (.addRow) (by simpa [DMOp.valid] using hv) hw h

theorem cmFill_ok {σ : Mem} {df : DMFrame} {d : CMData} {l : List Nat} {n : Nat} (ha : ArrFits d.arr d.cap n)
    (hp : ∀ p ∈ d.arr.toList, p ∈ l) (hf : FrameWf df) (hc : df.cols.length = d.nCols) (j : Nat) (rs : List CMRec)
    (hj : j + rs.length ≤ n) (hw : ∀ r ∈ rs, CMRecWf r ∧ r.fields.length = d.nCols)
    (hl : ∀ r ∈ rs, ∀ q ∈ cmRecPtrs r, q ∈ l) (h : Owns σ (framePtrs df ++ l)) :
    cmFill d j σ df rs = .fatal ∨ ∃ σ' df', cmFill d j σ df rs = .ok (σ', df') ∧ Owns σ' (framePtrs df' ++ l) ∧
      FrameWf df' ∧ df'.cols.length = d.nCols ∧ df'.nRows = df.nRows + rs.length := by
  induction rs generalizing σ df j with
  | nil => exact Or.inr ⟨σ, df, rfl, h, hf, hc, rfl⟩
  | cons r rs ih =>
    rw [List.length_cons] at hj
    rw [cmFill, slotUse_ok h ha (i := j) (by omega) (fun p hp' => List.mem_append_right _ (hp p hp')), Res.ok_bind]
    by_cases hv : df.cols = [] ∨ df.nRows < 2147483647
    · obtain ⟨σ1, df1, e1, h1, w1, n1, m1⟩ := dmAddRow_ok hf hv h
      obtain ⟨w, m⟩ := hw r (by simp)
      obtain ⟨σ2, df2, e2, h2, w2, n2, m2⟩ := cmFillRow_ok (i := df.nRows) w (hl r (by simp)) w1 (by omega) 0 d.nCols
        (by omega) (by omega) h1
      rw [e1, Res.ok_bind]
      simp only
      rw [e2, Res.ok_bind]
      simp only
      rcases ih w2 (by omega) (j + 1) (by omega) (fun x hx => hw x (by simp [hx])) (fun x hx => hl x (by simp [hx])) h2
        with e3 | ⟨σ3, df3, e3, h3, w3, n3, m3⟩
      · exact Or.inl e3
      · exact Or.inr ⟨σ3, df3, e3, h3, w3, n3, by rw [m3, m2, m1, List.length_cons]; omega⟩
    · left
      rw [dmAddRow_full hf hv h]
      rfl

theorem cmToFrame_ok {σ : Mem} {d : CMData} {l : List Nat} (hw : CMDataWf d) (h : Owns σ (cmDataPtrs d ++ l)) :
    cmToFrame σ d = .fatal ∨ ∃ σ' df, cmToFrame σ d = .ok (σ', df) ∧ Owns σ' (framePtrs df ++ (cmDataPtrs d ++ l)) ∧
      FrameWf df ∧ df.cols.length = d.nCols ∧ df.nRows + 1 = d.recs.length := by
  unfold cmToFrame
  cases hr : d.recs with
  | nil => exact Or.inl rfl
  | cons r rs =>
    simp only
    by_cases h0 : d.nCols = 0
    · exact Or.inl (by rw [if_pos h0])
    · rw [if_neg h0]
      have hmem : r ∈ d.recs := by simp [hr]
      obtain ⟨wr, nr⟩ := hw.recs r hmem
      obtain ⟨σ1, ct, ts, e1, h1, n1⟩ := cmColumnTypes_ok hw (by simp [hr]) h
      obtain ⟨h2, w2⟩ := dmAlloc_ok h1
      have hs := slotUse_ok h2 hw.arr (i := 0) (by simp [hr]) (by intro p hp; simp at hp; simp [cmDataPtrs, hp])
      obtain ⟨σ3, df3, e3, h3, w3, n3, hz⟩ := cmLabels_ok (ct := ct) wr
        (fun q hq => by simp [rec_data hmem q hq]) (by simp) w2 0 ts (by omega) h2
      obtain ⟨σ4, e4, h4⟩ := free_owns (p := ct) (l := framePtrs df3 ++ (cmDataPtrs d ++ l)) (h3.swap (by
        intro q
        simp only [List.count_append, List.count_cons]
        omega))
      rw [cmToFrameOf, e1, Res.ok_bind]
      simp only
      rw [hs, Res.ok_bind, e3, Res.ok_bind]
      simp only
      rw [e4, Res.ok_bind]
      have hc3 : df3.cols.length = d.nCols := by rw [n3, n1]; simp [dmAlloc]
      rcases cmFill_ok hw.arr (by intro p hp; simp at hp; simp [cmDataPtrs, hp]) w3 hc3 1 (d.recs.drop 1)
        (by rw [hr]; simp; omega) (fun x hx => hw.recs x (List.mem_of_mem_drop hx))
        (fun x hx q hq => List.mem_append_left _ (rec_data (List.mem_of_mem_drop hx) q hq)) h4
        with e5 | ⟨σ5, df5, e5, h5, w5, n5, m5⟩
      · exact Or.inl e5
      · exact Or.inr ⟨σ5, df5, e5, h5, w5, n5, by rw [m5, hz, hr]; simp [dmAlloc]⟩

theorem cmFreeFields_ok {σ : Mem} {l : List Nat} {arr : Option Nat} {cap n : Nat} (ha : ArrFits arr cap n)
    (hp : ∀ p ∈ arr.toList, p ∈ l) (fs : List CMField) (i : Nat) (hi : i + fs.length ≤ n)
    (h : Owns σ (fs.flatMap cmFieldPtrs ++ l)) :
    ∃ σ', cmFreeFields σ arr cap i fs = .ok σ' ∧ Owns σ' l := by
  induction fs generalizing σ i with
  | nil => exact ⟨σ, rfl, by simpa using h⟩
  | cons f fs ih =>
    rw [List.length_cons] at hi
    obtain ⟨σ1, e1, h1⟩ := freeOpt_owns (d := f.text) (l := f.self :: (fs.flatMap cmFieldPtrs ++ l)) (h.swap (by
      intro q
      simp only [List.flatMap_cons, cmFieldPtrs, List.count_append, List.count_cons, List.count_nil]
      omega))
    obtain ⟨σ2, e2, h2⟩ := free_owns h1
    obtain ⟨σ3, e3, h3⟩ := ih (i + 1) (by omega) h2
    exact ⟨σ3, by
      rw [cmFreeFields, slotUse_ok h ha (i := i) (by omega) (fun p hp' => List.mem_append_right _ (hp p hp')),
        Res.ok_bind, cmFieldFree, use_ok h (by simp [cmFieldPtrs]), Res.ok_bind, e1, Res.ok_bind, e2, Res.ok_bind,
        e3], h3⟩

theorem cmFreeRecs_ok {σ : Mem} {l : List Nat} {arr : Option Nat} {cap n : Nat} (ha : ArrFits arr cap n)
    (hp : ∀ p ∈ arr.toList, p ∈ l) (rs : List CMRec) (i : Nat) (hi : i + rs.length ≤ n) (hw : ∀ r ∈ rs, CMRecWf r)
    (h : Owns σ (rs.flatMap cmRecPtrs ++ l)) :
    ∃ σ', cmFreeRecs σ arr cap i rs = .ok σ' ∧ Owns σ' l := by
  induction rs generalizing σ i with
  | nil => exact ⟨σ, rfl, by simpa using h⟩
  | cons r rs ih =>
    rw [List.length_cons] at hi
    obtain ⟨σ1, e1, h1⟩ := cmFreeFields_ok (l := r.arr.toList ++ (r.self :: (rs.flatMap cmRecPtrs ++ l)))
      (hw r (by simp)) (by intro p hp; exact List.mem_append_left _ hp) r.fields 0 (by omega) (h.swap (by
        intro q
        simp only [List.flatMap_cons, cmRecPtrs, List.count_append, List.count_cons, List.count_nil]
        omega))
    obtain ⟨σ2, e2, h2⟩ := freeOpt_owns h1
    obtain ⟨σ3, e3, h3⟩ := free_owns h2
    obtain ⟨σ4, e4, h4⟩ := ih (i + 1) (by omega) (fun x hx => hw x (by simp [hx])) h3
    exact ⟨σ4, by
      rw [cmFreeRecs, slotUse_ok h ha (i := i) (by omega) (fun p hp' => List.mem_append_right _ (hp p hp')),
        Res.ok_bind, cmRecFree, use_ok h (by simp [cmRecPtrs]), Res.ok_bind, e1, Res.ok_bind, e2, Res.ok_bind, e3,
        Res.ok_bind, e4], h4⟩

theorem cmDataFree_ok {σ : Mem} {d : CMData} {l : List Nat} (hw : CMDataWf d) (h : Owns σ (cmDataPtrs d ++ l)) :
    ∃ σ', cmDataFree σ d = .ok σ' ∧ Owns σ' l := by
  obtain ⟨σ1, e1, h1⟩ := cmFreeRecs_ok (l := d.arr.toList ++ (d.self :: l)) hw.arr
    (by intro p hp; exact List.mem_append_left _ hp) d.recs 0 (by omega) (fun r hr => (hw.recs r hr).1) (h.swap (by
      intro q
      simp only [cmDataPtrs, List.count_append, List.count_cons, List.count_nil]
      omega))
  obtain ⟨σ2, e2, h2⟩ := freeOpt_owns h1
  obtain ⟨σ3, e3, h3⟩ := free_owns h2
  exact ⟨σ3, by
    rw [cmDataFree, use_ok h (by simp [cmDataPtrs]), Res.ok_bind, e1, Res.ok_bind, e2, Res.ok_bind, e3], h3⟩

/-- `nx_csv_parser_parse` on any tokens ends the program or gives a data frame; then the blocks that are new are those of
the frame. Nothing undefined happens. -/
theorem c112_parse {σ : Mem} {p : CMPar} {l : List Nat} (ts : List CMTok) (hp : TokFits p ts)
    (h : Owns σ (cmParPtrs p ++ l)) :
    cmParse σ p ts = .fatal ∨ ∃ σ' p' df, cmParse σ p ts = .ok (σ', p', df) ∧
      Owns σ' (framePtrs df ++ (cmParPtrs p' ++ l)) ∧ FrameWf df := by
  rw [cmParse]
  have key : cmParseCsv σ p ts = .fatal ∨ ∃ σ' p' d, cmParseCsv σ p ts = .ok (σ', p', d) ∧
      Owns σ' (cmDataPtrs d ++ (cmParPtrs p' ++ l)) ∧ CMDataWf d := by
    cases ts with
    | nil => exact Or.inl rfl
    | cons t ts =>
      refine cmParseLoop_ok _ (t :: ts) (by simp) ⟨⟨by simp, by simp⟩, by simp, by simp⟩ hp ((alloc_owns h).swap ?_)
      intro q
      simp only [cmDataPtrs, List.count_append, List.count_cons, List.count_nil, Option.toList_none, List.flatMap_nil]
      omega
  rcases key with e | ⟨σ1, p1, d, e, h1, w1⟩
  · left
    rw [e]
    rfl
  · rw [e, Res.ok_bind]
    simp only
    rcases cmToFrame_ok w1 h1 with e2 | ⟨σ2, df, e2, h2, w2, -, -⟩
    · left
      rw [e2]
      rfl
    · right
      obtain ⟨σ3, e3, h3⟩ := cmDataFree_ok (l := framePtrs df ++ (cmParPtrs p1 ++ l)) w1 (h2.swap (by
        intro q
        simp only [List.count_append]
        omega))
      refine ⟨σ3, p1, df, ?_, h3, w2⟩
      rw [e2, Res.ok_bind]
      simp only
      rw [e3]
      rfl

theorem cmReadText_ok {σ : Mem} {l : List Nat} (t n : Nat) (h : Owns σ (t :: l)) :
    ∃ σ' t', cmReadText σ t n = .ok (σ', t') ∧ Owns σ' (t' :: l) := by
  induction n generalizing σ t with
  | zero => exact ⟨σ, t, rfl, h⟩
  | succ n ih =>
    obtain ⟨σ1, e1, h1⟩ := free_owns h
    obtain ⟨σ2, t2, e2, h2⟩ := ih _ (alloc_owns h1)
    refine ⟨σ2, t2, ?_, h2⟩
    rw [cmReadText, memRealloc, e1]
    exact e2

/-- Loading a CSV file ends the program, or the new blocks are those of the data frame that it gives. -/
theorem c112_load {σ : Mem} {l : List Nat} (n : Nat) (ts : List CMTok) (h : Owns σ l) :
    cmLoad σ n ts = .fatal ∨ ∃ σ' df, cmLoad σ n ts = .ok (σ', df) ∧ Owns σ' (framePtrs df ++ l) ∧ FrameWf df := by
  obtain ⟨σ1, t, e1, h1⟩ := cmReadText_ok _ n (alloc_owns h)
  obtain ⟨σ2, p, e2, h2, w2⟩ := cmParserNew_ok ts (alloc_owns (alloc_owns h1))
  rw [cmLoad]
  simp only
  rw [e1, Res.ok_bind]
  simp only
  rw [e2, Res.ok_bind]
  simp only
  rcases c112_parse ts w2 h2 with e3 | ⟨σ3, p3, df, e3, h3, w3⟩
  · left
    rw [e3]
    rfl
  · right
    obtain ⟨σ4, e4, h4⟩ := cmParserFree_ok (p := p3) (l := (memAlloc (memAlloc σ1).1).2 :: (memAlloc σ1).2 :: t ::
      (framePtrs df ++ l)) (h3.swap (by
        intro q
        simp only [List.count_append, List.count_cons]
        omega))
    obtain ⟨σ5, e5, h5⟩ := free_owns h4
    obtain ⟨σ6, e6, h6⟩ := free_owns h5
    obtain ⟨σ7, e7, h7⟩ := free_owns h6
    refine ⟨σ7, df, ?_, h7, w3⟩
    rw [e3, Res.ok_bind]
    simp only
    rw [e4, Res.ok_bind, e5, Res.ok_bind, e6, Res.ok_bind, e7]
    rfl

/-- From the start to the end: a program that loads a CSV file and frees the data frame is ended by an error, or it
leaves no block behind. -/
theorem c112_life (k n : Nat) (ts : List CMTok) :
    cmLoad ⟨[], k⟩ n ts = .fatal ∨
      ∃ σ df σ', cmLoad ⟨[], k⟩ n ts = .ok (σ, df) ∧ dmFree σ df = .ok σ' ∧ σ'.live = [] := by
  have h0 : Owns ⟨[], k⟩ [] := ⟨by simp, by simp, by simp⟩
  rcases c112_load n ts h0 with e | ⟨σ, df, e, h, w⟩
  · exact Or.inl e
  · obtain ⟨σ', e', h'⟩ := c111_free w h
    refine Or.inr ⟨σ, df, σ', e, e', ?_⟩
    rw [List.eq_nil_iff_forall_not_mem]
    intro q hq
    have := h'.same q
    rw [List.count_nil, List.count_eq_zero] at this
    exact this hq

/-- A header with a label that is missing and two records, the second with a field that is missing. -/
def cmDemo : List CMTok :=
  [.field .string, .comma, .field .string, .comma, .eor, .field .int, .comma, .field .string, .comma, .eor, .comma,
    .field .int, .comma, .field .double]

example : (match cmLoad ⟨[], 7⟩ 2 cmDemo with
    | .ok (σ, df) => decide (σ.live.length = (framePtrs df).length ∧ df.cols.length = 3 ∧ df.nRows = 2 ∧
        df.cols.map (·.type) = [.int, .string, .double])
    | _ => false) = true := by decide +kernel

example : (match cmLoad ⟨[], 7⟩ 2 cmDemo with
    | .ok (σ, df) => (match dmFree σ df with
      | .ok σ' => decide (σ'.live = [])
      | _ => false)
    | _ => false) = true := by decide +kernel

/-- A record with too few fields. -/
example : (match cmLoad ⟨[], 7⟩ 0 [.field .string, .comma, .field .string, .eor, .field .int] with
    | .fatal => true
    | _ => false) = true := by decide +kernel

end Nx
