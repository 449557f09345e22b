import Verif.Model.DataFrameMem
import Verif.Lemmas.Ledger

/-!
# C111: memory of data frames
-/

namespace Nx

/-- The blocks of the levels of a factor. -/
def levPtrs : Option DMLevels → List Nat
  | none => []
  | some lv => [lv.self] ++ lv.arr.toList ++ lv.elems.flatMap Option.toList

/-- The blocks of a column. -/
def colPtrs (dc : DMCol) : List Nat :=
  [dc.self] ++ dc.label.toList ++ dc.arr.toList ++ dc.elems.flatMap Option.toList ++ levPtrs dc.levels

/-- The blocks of a data frame. -/
def framePtrs (df : DMFrame) : List Nat := [df.self, df.colsSelf] ++ df.arr.toList ++ df.cols.flatMap colPtrs

/-- The strings of the levels. -/
def levStrs : Option DMLevels → List Nat
  | none => []
  | some lv => lv.elems.flatMap Option.toList

/-- The strings of a column: its label, the elements of a column of strings, the levels. -/
def colStrs (dc : DMCol) : List Nat :=
  dc.label.toList ++ (if dc.type = .string then dc.elems.flatMap Option.toList else []) ++ levStrs dc.levels

/-- The strings that a program may get from a data frame. -/
def frameStrs (df : DMFrame) : List Nat := df.cols.flatMap colStrs

/-- An array has space for `n` elements. -/
def ArrFits (arr : Option Nat) (cap n : Nat) : Prop := n ≤ cap ∧ (0 < cap → arr ≠ none)

/-- The levels fit and none is `NULL`. -/
structure LevWf (lv : DMLevels) : Prop where
  arr : ArrFits lv.arr lv.cap lv.elems.length
  elems : ∀ e ∈ lv.elems, e ≠ none

/-- A column has an element for each of `n` rows, a label, and levels exactly if it is a factor. -/
structure ColWf (dc : DMCol) (n : Nat) : Prop where
  len : dc.elems.length = n
  arr : ArrFits dc.arr dc.cap n
  label : dc.label ≠ none
  lev : ∀ lv, dc.levels = some lv → LevWf lv
  factor : dc.type = .factor ↔ dc.levels ≠ none

/-- The same for all columns. -/
structure FrameWf (df : DMFrame) : Prop where
  arr : ArrFits df.arr df.cap df.cols.length
  cols : ∀ dc ∈ df.cols, ColWf dc df.nRows

theorem slotUse_ok {σ : Mem} {l : List Nat} {arr : Option Nat} {cap n i : Nat} (h : Owns σ l) (ha : ArrFits arr cap n)
    (hi : i < n) (hp : ∀ p ∈ arr.toList, p ∈ l) : slotUse σ arr cap i = .ok () := by
  obtain ⟨h1, h2⟩ := ha
  cases arr with
  | none => exact absurd rfl (h2 (by omega))
  | some p =>
    unfold slotUse
    simp only
    rw [if_pos (by omega), use_ok h (hp p (by simp))]

theorem memEnsure_ok {σ : Mem} {l : List Nat} {arr : Option Nat} {cap n : Nat} (req : Nat)
    (h : Owns σ (arr.toList ++ l)) (ha : ArrFits arr cap n) :
    ∃ σ' arr' cap', memEnsure σ arr cap req = .ok (σ', arr', cap') ∧ Owns σ' (arr'.toList ++ l) ∧
      ArrFits arr' cap' req := by
  unfold memEnsure
  by_cases hc : cap < req
  · rw [if_pos hc]
    obtain ⟨σ1, e1, h1⟩ := freeOpt_owns h
    refine ⟨(memAlloc σ1).1, some (memAlloc σ1).2, if (cap + 8) * 3 / 2 < req then req else (cap + 8) * 3 / 2, ?_,
      alloc_owns h1, ?_, by simp⟩
    · rw [memRealloc, e1]
      rfl
    · split <;> omega
  · rw [if_neg hc]
    exact ⟨σ, arr, cap, rfl, h, by omega, ha.2⟩

theorem focusAt {α : Type} (f : α → List Nat) {l : List α} {k : Nat} {x : α} (hk : l[k]? = some x) :
    ∃ rest : List Nat, (∀ q, (l.flatMap f).count q = (f x).count q + rest.count q) ∧
      (∀ y q, ((l.set k y).flatMap f).count q = (f y).count q + rest.count q) ∧
      ∀ (d : Nat) (y : α), d ≠ k → l[d]? = some y → ∀ q ∈ f y, q ∈ rest := by
  induction l generalizing k with
  | nil => simp at hk
  | cons a l ih =>
    cases k with
    | zero =>
      obtain rfl : a = x := by simpa using hk
      refine ⟨l.flatMap f, by simp, by simp, ?_⟩
      intro d y hd hy q hq
      cases d with
      | zero => exact absurd rfl hd
      | succ d => exact List.mem_flatMap.mpr ⟨y, List.mem_of_getElem? (by simpa using hy), hq⟩
    | succ k =>
      obtain ⟨rest, h1, h2, h3⟩ := ih (by simpa using hk)
      refine ⟨f a ++ rest, fun q => ?_, fun y q => ?_, ?_⟩
      · simp only [List.flatMap_cons, List.count_append, h1]
        omega
      · simp only [List.set_cons_succ, List.flatMap_cons, List.count_append, h2]
        omega
      · intro d y hd hy q hq
        cases d with
        | zero =>
          obtain rfl : a = y := by simpa using hy
          exact List.mem_append_left _ hq
        | succ d => exact List.mem_append_right _ (h3 d y (by omega) (by simpa using hy) q hq)

theorem dmNa_ok {σ : Mem} {dc : DMCol} {n r : Nat} {l : List Nat} (hw : ColWf dc n) (hr : r < n)
    (h : Owns σ (colPtrs dc ++ l)) :
    ∃ σ' dc', dmNa σ dc r = .ok (σ', dc') ∧ Owns σ' (colPtrs dc' ++ l) ∧ ColWf dc' n ∧ dc'.elems[r]? = some none ∧
      dc' = { dc with elems := dc.elems.set r none } := by
  have hlt : r < dc.elems.length := by rw [hw.len]; exact hr
  obtain ⟨rest, f1, f2, -⟩ := focusAt Option.toList (List.getElem?_eq_getElem hlt)
  have hs := slotUse_ok h hw.arr hr (by intro p hp; simp [colPtrs] at hp ⊢; simp [hp])
  obtain ⟨σ1, e1, h1⟩ := freeOpt_owns (d := dc.elems[r])
    (l := colPtrs { dc with elems := dc.elems.set r none } ++ l) (h.swap (by
      intro q
      simp only [colPtrs, List.count_append, f1, f2, Option.toList_none, List.count_nil]
      omega))
  refine ⟨σ1, _, ?_, h1, ⟨by simpa using hw.len, hw.arr, hw.label, hw.lev, hw.factor⟩, by simp [hlt], rfl⟩
  rw [dmNa, hs, Res.ok_bind, readAt_ok hlt, Res.ok_bind, e1, Res.ok_bind, writeAt_ok _ hlt]
  rfl

theorem dmPut_ok {σ : Mem} {dc : DMCol} {n r : Nat} {p : Option Nat} {l : List Nat} (hw : ColWf dc n) (hr : r < n)
    (he : dc.elems[r]? = some none) (h : Owns σ (p.toList ++ colPtrs dc ++ l)) :
    ∃ dc', dmPut σ dc r p = .ok (σ, dc') ∧ Owns σ (colPtrs dc' ++ l) ∧ ColWf dc' n ∧ dc'.type = dc.type := by
  have hlt : r < dc.elems.length := by rw [hw.len]; exact hr
  obtain ⟨rest, f1, f2, -⟩ := focusAt Option.toList he
  have hs := slotUse_ok h hw.arr hr (by intro p hp; simp [colPtrs] at hp ⊢; simp [hp])
  refine ⟨{ dc with elems := dc.elems.set r p }, ?_, h.swap ?_,
    ⟨by simpa using hw.len, hw.arr, hw.label, hw.lev, hw.factor⟩, rfl⟩
  · rw [dmPut, hs, Res.ok_bind, writeAt_ok _ hlt]
    rfl
  · intro q
    simp only [colPtrs, List.count_append, f1, f2, Option.toList_none, List.count_nil]
    omega

theorem strdup_owns {σ : Mem} {l : List Nat} {s : MSrc} (hn : s ≠ .null) (h : Owns σ l)
    (hs : ∀ p, s = .ptr p → p ∈ l) :
    ∃ σ' d', memStrdup σ s = .ok (σ', d') ∧ Owns σ' (d'.toList ++ l) ∧ d' ≠ none := by
  obtain ⟨σ', d', e, h'⟩ := dup_owns h hs
  refine ⟨σ', d', by rw [memStrdup, if_neg hn, e], h', ?_⟩
  cases s with
  | null => exact absurd rfl hn
  | ext =>
    cases e
    simp
  | ptr p =>
    rw [memDup, use_ok h (hs p rfl), Res.ok_bind] at e
    cases e
    simp

theorem dmColSetString_ok {σ : Mem} {dc : DMCol} {n r : Nat} {s : MSrc} {l : List Nat} (hw : ColWf dc n) (hr : r < n)
    (ht : dc.type = .string) (hn : s ≠ .null) (h : Owns σ (colPtrs dc ++ l))
    (hs : ∀ p, s = .ptr p → p ∈ colPtrs dc ++ l ∧ dc.elems[r]? ≠ some (some p)) :
    ∃ σ' dc', dmColSetString s r σ dc = .ok (σ', dc') ∧ Owns σ' (colPtrs dc' ++ l) ∧ ColWf dc' n ∧
      dc'.type = dc.type := by
  have hlt : r < dc.elems.length := by rw [hw.len]; exact hr
  obtain ⟨σ1, dc1, e1, h1, w1, g1, rfl⟩ := dmNa_ok hw hr h
  obtain ⟨rest, f1, f2, -⟩ := focusAt Option.toList (List.getElem?_eq_getElem hlt)
  obtain ⟨σ2, d, e2, h2, -⟩ := strdup_owns hn h1 (by
    intro p hp
    obtain ⟨a1, a2⟩ := hs p hp
    rw [← List.count_pos_iff] at a1 ⊢
    simp only [colPtrs, List.count_append, f1, f2, Option.toList_none, List.count_nil] at a1 ⊢
    have : List.count p dc.elems[r].toList = 0 := by
      rw [List.count_eq_zero]
      intro hm
      apply a2
      rw [List.getElem?_eq_getElem hlt]
      simpa using hm
    omega)
  obtain ⟨dc3, e3, h3, w3, t3⟩ := dmPut_ok (p := d) w1 hr g1 (by rw [List.append_assoc]; exact h2)
  refine ⟨σ2, dc3, ?_, h3, w3, t3⟩
  rw [dmColSetString, if_pos ht, e1, Res.ok_bind]
  simp only
  rw [e2, Res.ok_bind, e3]

theorem dmColSetPlain_ok {σ : Mem} {dc : DMCol} {n r : Nat} {type : DCT} {l : List Nat} (hw : ColWf dc n) (hr : r < n)
    (ht : dc.type = type) (h : Owns σ (colPtrs dc ++ l)) :
    ∃ σ' dc', dmColSetPlain type r σ dc = .ok (σ', dc') ∧ Owns σ' (colPtrs dc' ++ l) ∧ ColWf dc' n ∧
      dc'.type = dc.type := by
  obtain ⟨σ1, dc1, e1, h1, w1, g1, rfl⟩ := dmNa_ok hw hr h
  obtain ⟨dc3, e3, h3, w3, t3⟩ := dmPut_ok (p := some (memAlloc σ1).2) (l := l) w1 hr g1 (alloc_owns h1)
  refine ⟨_, dc3, ?_, h3, w3, t3⟩
  rw [dmColSetPlain, if_pos ht, e1, Res.ok_bind]
  exact e3

theorem dmFindLoop_ok {σ : Mem} {l : List Nat} {arr : Option Nat} {cap n : Nat} {s : MSrc} (h : Owns σ l)
    (ha : ArrFits arr cap n) (hp : ∀ p ∈ arr.toList, p ∈ l) (hn : s ≠ .null) (hs : ∀ p, s = .ptr p → p ∈ l)
    (es : List (Option Nat)) (i k : Nat) (hi : i + es.length ≤ n) (he : ∀ e ∈ es, ∃ p ∈ l, e = some p) :
    ∃ b, dmFindLoop σ arr cap s i es k = .ok b := by
  have hu : srcUse σ s = .ok () := by
    cases s with
    | null => exact absurd rfl hn
    | ext => rfl
    | ptr p => exact use_ok h (hs p rfl)
  induction es generalizing i k with
  | nil => exact ⟨false, rfl⟩
  | cons e es ih =>
    obtain ⟨p, hpl, rfl⟩ := he e (by simp)
    rw [List.length_cons] at hi
    rw [dmFindLoop, hu, Res.ok_bind, slotUse_ok h ha (i := i) (by omega) hp, Res.ok_bind]
    have : srcUse σ (MSrc.of (some p)) = .ok () := use_ok h hpl
    rw [this, Res.ok_bind]
    split
    · exact ⟨true, rfl⟩
    · exact ih _ _ (by omega) (fun e he' => he e (by simp [he']))

theorem dmLevelsAppend_ok {σ : Mem} {lv : DMLevels} {s : MSrc} {l : List Nat} (hw : LevWf lv) (hn : s ≠ .null)
    (h : Owns σ (levPtrs (some lv) ++ l))
    (hs : ∀ p, s = .ptr p → p ∈ lv.elems.flatMap Option.toList ++ l) :
    ∃ σ' lv', dmLevelsAppend σ lv s = .ok (σ', lv') ∧ Owns σ' (levPtrs (some lv') ++ l) ∧ LevWf lv' := by
  obtain ⟨σ1, a1, c1, e1, h1, w1⟩ := memEnsure_ok (lv.elems.length + 1) (arr := lv.arr)
    (l := lv.self :: (lv.elems.flatMap Option.toList ++ l)) (h.swap (by
      intro q
      simp only [levPtrs, List.count_append, List.count_cons, List.count_nil]
      omega)) hw.arr
  have hu := slotUse_ok h1 w1 (Nat.lt_succ_self _) (by intro p hp; exact List.mem_append_left _ hp)
  obtain ⟨σ2, d, e2, h2, n2⟩ := strdup_owns hn h1 (by
    intro p hp
    have := hs p hp
    simp only [List.mem_append, List.mem_cons] at this ⊢
    exact Or.inr (Or.inr this))
  have e2' : memRedup σ1 none s = .ok (σ2, d) := by
    rw [memStrdup, if_neg hn] at e2
    rw [memRedup]
    exact e2
  refine ⟨σ2, { lv with arr := a1, cap := c1, elems := lv.elems ++ [d] }, ?_, h2.swap ?_, ?_, ?_⟩
  · rw [dmLevelsAppend, use_ok h (by simp [levPtrs]), Res.ok_bind, e1, Res.ok_bind]
    simp only
    rw [hu, Res.ok_bind, e2']
    rfl
  · intro q
    simp only [levPtrs, List.count_append, List.count_cons, List.count_nil, List.flatMap_append, List.flatMap_cons,
      List.flatMap_nil]
    omega
  · simpa using w1
  · intro e he
    simp only [List.mem_append, List.mem_singleton] at he
    obtain he | rfl := he
    · exact hw.elems e he
    · exact n2

theorem strs_sub {dc : DMCol} {l : List Nat} {p : Nat} (h : p ∈ colStrs dc ++ l) : p ∈ colPtrs dc ++ l := by
  rw [List.mem_append, colStrs, List.mem_append, List.mem_append] at h
  simp only [colPtrs, List.mem_append]
  rcases h with ((h1 | h1) | h1) | h1
  · simp [h1]
  · split at h1
    · simp [h1]
    · simp at h1
  · refine Or.inl (Or.inr ?_)
    cases hl : dc.levels with
    | none =>
      rw [hl] at h1
      cases h1
    | some lv =>
      rw [hl, levStrs] at h1
      rw [levPtrs, List.mem_append]
      exact Or.inr h1
  · simp [h1]

theorem dmToFactor_ok {σ : Mem} {dc : DMCol} {n : Nat} {s : MSrc} {l : List Nat} (k : Nat) (hw : ColWf dc n)
    (ht : dc.type = .factor) (hn : s ≠ .null) (h : Owns σ (colPtrs dc ++ l))
    (hs : ∀ p, s = .ptr p → p ∈ colStrs dc ++ l) :
    ∃ σ' dc', dmToFactor σ dc s k = .ok (σ', dc') ∧ Owns σ' (colPtrs dc' ++ l) ∧ ColWf dc' n ∧
      dc'.type = dc.type ∧ dc'.elems = dc.elems := by
  cases hl : dc.levels with
  | none => exact absurd hl (hw.factor.mp ht)
  | some lv =>
    have hlw := hw.lev lv hl
    have hself : lv.self ∈ colPtrs dc ++ l := by simp [colPtrs, hl, levPtrs]
    obtain ⟨b, eb⟩ := dmFindLoop_ok h hlw.arr (s := s)
      (by intro p hp; simp only [colPtrs, hl, levPtrs, List.mem_append]; simp only [Option.mem_toList] at hp; simp [hp])
      hn (by
        intro p hp
        exact strs_sub (hs p hp)) lv.elems 0 k (by omega) (by
        intro e he
        cases e with
        | none => exact absurd rfl (hlw.elems _ he)
        | some p =>
          refine ⟨p, ?_, rfl⟩
          simp only [colPtrs, hl, levPtrs, List.mem_append, List.mem_flatMap]
          exact Or.inl (Or.inr (Or.inr ⟨some p, he, by simp⟩)))
    unfold dmToFactor
    rw [hl]
    simp only
    rw [use_ok h hself, Res.ok_bind, eb, Res.ok_bind]
    cases b with
    | true => exact ⟨σ, dc, rfl, h, hw, rfl, rfl⟩
    | false =>
      rw [if_neg (by decide)]
      obtain ⟨σ1, lv1, e1, h1, w1⟩ := dmLevelsAppend_ok (s := s) (l := colPtrs { dc with levels := none } ++ l) hlw hn
        (h.swap (by
          intro q
          simp only [colPtrs, hl, levPtrs, List.count_append, List.count_cons, List.count_nil]
          omega)) (by
        intro p hp
        have := hs p hp
        rw [List.mem_append, colStrs, List.mem_append, List.mem_append, hl, levStrs,
          if_neg (by rw [ht]; decide)] at this
        simp only [colPtrs, List.mem_append]
        rcases this with ((h1 | h1) | h1) | h1
        · simp [h1]
        · simp at h1
        · simp [h1]
        · simp [h1])
      refine ⟨σ1, { dc with levels := some lv1 }, ?_, h1.swap ?_, ⟨hw.len, hw.arr, hw.label, ?_, ?_⟩, rfl, rfl⟩
      · rw [e1]
        rfl
      · intro q
        simp only [colPtrs, levPtrs, List.count_append, List.count_nil]
        omega
      · intro lv' he
        cases he
        exact w1
      · simp [ht]

theorem dmColSetFactor_ok {σ : Mem} {dc : DMCol} {n r : Nat} {s : MSrc} {l : List Nat} (k : Nat) (hw : ColWf dc n)
    (hr : r < n) (ht : dc.type = .factor) (hn : s ≠ .null) (h : Owns σ (colPtrs dc ++ l))
    (hs : ∀ p, s = .ptr p → p ∈ colStrs dc ++ l) :
    ∃ σ' dc', dmColSetFactor s k r σ dc = .ok (σ', dc') ∧ Owns σ' (colPtrs dc' ++ l) ∧ ColWf dc' n ∧
      dc'.type = dc.type := by
  obtain ⟨σ1, dc1, e1, h1, w1, g1, rfl⟩ := dmNa_ok hw hr h
  obtain ⟨σ2, dc2, e2, h2, w2, t2, g2⟩ := dmToFactor_ok k w1 ht hn h1 (by
    intro p hp
    have := hs p hp
    simp only [colStrs, ht] at this ⊢
    exact this)
  obtain ⟨dc3, e3, h3, w3, t3⟩ := dmPut_ok (p := some (memAlloc σ2).2) (l := l) w2 hr (by rw [g2]; exact g1)
    (alloc_owns h2)
  refine ⟨_, dc3, ?_, h3, w3, t3.trans t2⟩
  rw [dmColSetFactor, if_pos ht, e1, Res.ok_bind]
  simp only
  rw [e2, Res.ok_bind]
  exact e3

theorem dmClear_ok {σ : Mem} {l : List Nat} {arr : Option Nat} {cap n : Nat} (h : Owns σ l) (ha : ArrFits arr cap n)
    (hp : ∀ p ∈ arr.toList, p ∈ l) (i m : Nat) (hi : i + m ≤ n) : dfmClear σ arr cap i m = .ok () := by
  induction m generalizing i with
  | zero => rfl
  | succ m ih => rw [dfmClear, slotUse_ok h ha (i := i) (by omega) hp, Res.ok_bind, ih (i + 1) (by omega)]

theorem flatMap_replicate_none (n : Nat) : (List.replicate n (none : Option Nat)).flatMap Option.toList = [] := by
  simp

theorem dmGrow_ok {σ : Mem} {dc : DMCol} {n m : Nat} {l : List Nat} (hw : ColWf dc n) (hm : n ≤ m)
    (h : Owns σ (colPtrs dc ++ l)) :
    ∃ σ' dc', dmGrow σ dc m = .ok (σ', dc') ∧ Owns σ' (colPtrs dc' ++ l) ∧ ColWf dc' m ∧ dc'.type = dc.type ∧
      colStrs dc' = colStrs dc ∧ dc'.self = dc.self := by
  unfold dmGrow
  by_cases hc : dc.elems.length < m
  · rw [if_pos hc]
    obtain ⟨σ1, a1, c1, e1, h1, w1⟩ := memEnsure_ok m (arr := dc.arr) (l := colPtrs { dc with arr := none } ++ l)
      (h.swap (by
        intro q
        simp only [colPtrs, List.count_append, Option.toList_none, List.count_nil]
        omega)) hw.arr
    have hu := dmClear_ok h1 w1 (by intro p hp; exact List.mem_append_left _ hp) dc.elems.length
      (m - dc.elems.length) (by omega)
    refine ⟨σ1, { dc with
      arr := a1
      cap := c1
      elems := dc.elems ++ List.replicate (m - dc.elems.length) none }, ?_, h1.swap ?_,
      ⟨?_, w1, hw.label, hw.lev, hw.factor⟩, rfl, ?_, rfl⟩
    · rw [e1, Res.ok_bind]
      simp only
      rw [hu]
      rfl
    · intro q
      simp only [colPtrs, List.count_append, Option.toList_none, List.count_nil, List.flatMap_append,
        flatMap_replicate_none]
      omega
    · simp only [List.length_append, List.length_replicate]
      omega
    · simp only [colStrs, List.flatMap_append, flatMap_replicate_none, List.append_nil]
  · rw [if_neg hc]
    have : n = m := by
      have := hw.len
      omega
    subst this
    exact ⟨σ, dc, rfl, h, hw, rfl, rfl, rfl⟩

theorem dmColNew_ok {σ : Mem} {type : DCT} {s : MSrc} {l : List Nat} (n : Nat) (hn : s ≠ .null) (h : Owns σ l)
    (hs : ∀ p, s = .ptr p → p ∈ l) :
    ∃ σ' dc, dmColNew σ type s n = .ok (σ', dc) ∧ Owns σ' (colPtrs dc ++ l) ∧ ColWf dc n ∧ dc.type = type := by
  have h0 := alloc_owns h
  obtain ⟨σ1, d, e1, h1, n1⟩ := strdup_owns hn h0 (fun p hp => List.mem_cons_of_mem _ (hs p hp))
  have key : ∃ σ2 lv, dmNewLevels σ1 type = (σ2, lv) ∧ Owns σ2 (levPtrs lv ++ (d.toList ++ ((memAlloc σ).2 :: l))) ∧
      (∀ lv', lv = some lv' → LevWf lv') ∧ (type = .factor ↔ lv ≠ none) := by
    unfold dmNewLevels
    by_cases ht : type = .factor
    · rw [if_pos ht]
      refine ⟨_, _, rfl, (alloc_owns (alloc_owns h1)).swap ?_, ?_, by simp [ht]⟩
      · intro q
        simp only [dmLevelsAlloc, levPtrs, List.count_append, List.count_cons, List.count_nil, Option.toList_some,
          List.flatMap_nil]
        omega
      · intro lv' he
        cases he
        exact ⟨⟨by simp [dmLevelsAlloc], by simp [dmLevelsAlloc]⟩, by simp [dmLevelsAlloc]⟩
    · rw [if_neg ht]
      exact ⟨σ1, none, rfl, by simpa [levPtrs] using h1, by simp, by simp [ht]⟩
  obtain ⟨σ2, lv, e2, h2, w2, f2⟩ := key
  obtain ⟨σ3, dc, e3, h3, w3, t3, -, -⟩ := dmGrow_ok (m := n) (n := 0)
    (dc := ⟨(memAlloc σ).2, type, d, none, 0, [], lv⟩) (l := l)
    ⟨rfl, ⟨by omega, by simp⟩, n1, w2, f2⟩ (by omega) (h2.swap (by
      intro q
      simp only [colPtrs, List.count_append, List.count_cons, List.count_nil, Option.toList_none, List.flatMap_nil]
      omega))
  refine ⟨σ3, dc, ?_, h3, w3, t3⟩
  rw [dmColNew, dmColAlloc]
  simp only
  rw [e1, Res.ok_bind]
  simp only [e2]
  rw [Res.pure_eq, Res.ok_bind]
  exact e3

theorem dmFreeElems_ok {σ : Mem} {l : List Nat} {arr : Option Nat} {cap n : Nat} (ha : ArrFits arr cap n)
    (hp : ∀ p ∈ arr.toList, p ∈ l) (es : List (Option Nat)) (i : Nat) (hi : i + es.length ≤ n)
    (h : Owns σ (es.flatMap Option.toList ++ l)) :
    ∃ σ', dmFreeElems σ arr cap i es = .ok σ' ∧ Owns σ' l := by
  induction es generalizing σ i with
  | nil => exact ⟨σ, rfl, by simpa using h⟩
  | cons e es ih =>
    rw [List.length_cons] at hi
    obtain ⟨σ1, e1, h1⟩ := freeOpt_owns (d := e) (l := es.flatMap Option.toList ++ l) (by simpa using h)
    obtain ⟨σ2, e2, h2⟩ := ih (i + 1) (by omega) h1
    exact ⟨σ2, by
      rw [dmFreeElems, slotUse_ok h ha (i := i) (by omega) (fun p hp' => List.mem_append_right _ (hp p hp')),
        Res.ok_bind, e1, Res.ok_bind, e2], h2⟩

theorem dmLevelsFree_ok {σ : Mem} {lv : Option DMLevels} {l : List Nat} (hw : ∀ lv', lv = some lv' → LevWf lv')
    (h : Owns σ (levPtrs lv ++ l)) : ∃ σ', dmLevelsFree σ lv = .ok σ' ∧ Owns σ' l := by
  cases lv with
  | none => exact ⟨σ, rfl, by simpa [levPtrs] using h⟩
  | some lv =>
    obtain ⟨σ1, e1, h1⟩ := dmFreeElems_ok (l := lv.arr.toList ++ (lv.self :: l)) (hw lv rfl).arr
      (by intro p hp; exact List.mem_append_left _ hp) lv.elems 0 (by omega) (h.swap (by
        intro q
        simp only [levPtrs, List.count_append, List.count_cons, List.count_nil]
        omega))
    obtain ⟨σ2, e2, h2⟩ := freeOpt_owns h1
    obtain ⟨σ3, e3, h3⟩ := free_owns h2
    exact ⟨σ3, by rw [dmLevelsFree, use_ok h (by simp [levPtrs]), Res.ok_bind, e1, Res.ok_bind, e2, Res.ok_bind, e3], h3⟩

theorem dmColFree_ok {σ : Mem} {dc : DMCol} {n : Nat} {l : List Nat} (hw : ColWf dc n)
    (h : Owns σ (colPtrs dc ++ l)) : ∃ σ', dmColFree σ dc = .ok σ' ∧ Owns σ' l := by
  obtain ⟨σ1, e1, h1⟩ := dmFreeElems_ok
    (l := dc.label.toList ++ (levPtrs dc.levels ++ (dc.arr.toList ++ (dc.self :: l)))) hw.arr
    (by intro p hp; simp at hp; simp [hp]) dc.elems 0 (by rw [hw.len]; omega) (h.swap (by
      intro q
      simp only [colPtrs, List.count_append, List.count_cons, List.count_nil]
      omega))
  obtain ⟨σ2, e2, h2⟩ := freeOpt_owns h1
  obtain ⟨σ3, e3, h3⟩ := dmLevelsFree_ok hw.lev h2
  obtain ⟨σ4, e4, h4⟩ := freeOpt_owns h3
  obtain ⟨σ5, e5, h5⟩ := free_owns h4
  exact ⟨σ5, by
    rw [dmColFree, use_ok h (by simp [colPtrs]), Res.ok_bind, e1, Res.ok_bind, e2, Res.ok_bind, e3, Res.ok_bind, e4,
      Res.ok_bind, e5], h5⟩

theorem dmFreeCols_ok {σ : Mem} {df : DMFrame} {l : List Nat} {n : Nat} (ha : ArrFits df.arr df.cap n)
    (hp : ∀ p ∈ df.arr.toList, p ∈ l) (hc : df.colsSelf ∈ l) (dcs : List DMCol) (i : Nat) (hi : i + dcs.length ≤ n)
    (hw : ∀ dc ∈ dcs, ColWf dc df.nRows) (h : Owns σ (dcs.flatMap colPtrs ++ l)) :
    ∃ σ', dmFreeCols σ df i dcs = .ok σ' ∧ Owns σ' l := by
  induction dcs generalizing σ i with
  | nil => exact ⟨σ, rfl, by simpa using h⟩
  | cons dc dcs ih =>
    rw [List.length_cons] at hi
    obtain ⟨σ1, e1, h1⟩ := dmColFree_ok (hw dc (by simp)) (l := dcs.flatMap colPtrs ++ l) (by simpa using h)
    obtain ⟨σ2, e2, h2⟩ := ih (i + 1) (by omega) (fun x hx => hw x (by simp [hx])) h1
    exact ⟨σ2, by
      rw [dmFreeCols, use_ok h (List.mem_append_right _ hc), Res.ok_bind,
        slotUse_ok h ha (i := i) (by omega) (fun p hp' => List.mem_append_right _ (hp p hp')),
        Res.ok_bind, e1, Res.ok_bind, e2], h2⟩

/-- `nx_data_frame_free` frees every block of the frame once and nothing else. -/
theorem c111_free {σ : Mem} {df : DMFrame} {l : List Nat} (hw : FrameWf df) (h : Owns σ (framePtrs df ++ l)) :
    ∃ σ', dmFree σ df = .ok σ' ∧ Owns σ' l := by
  obtain ⟨σ1, e1, h1⟩ := dmFreeCols_ok (l := df.arr.toList ++ (df.colsSelf :: df.self :: l)) hw.arr
    (by intro p hp; simp at hp; simp [hp]) (by simp) df.cols 0 (by omega) hw.cols (h.swap (by
      intro q
      simp only [framePtrs, List.count_append, List.count_cons, List.count_nil]
      omega))
  obtain ⟨σ2, e2, h2⟩ := freeOpt_owns h1
  obtain ⟨σ3, e3, h3⟩ := free_owns h2
  obtain ⟨σ4, e4, h4⟩ := free_owns h3
  exact ⟨σ4, by
    rw [dmFree, use_ok h (by simp [framePtrs]), Res.ok_bind, e1, Res.ok_bind, use_ok h1 (by simp), Res.ok_bind, e2,
      Res.ok_bind, e3, Res.ok_bind, e4], h4⟩

theorem dmColAt_ok {σ : Mem} {df : DMFrame} {l : List Nat} {c : Nat} (hw : FrameWf df) (hc : c < df.cols.length)
    (h : Owns σ (framePtrs df ++ l)) : dmColAt σ df c = .ok df.cols[c] := by
  rw [dmColAt, use_ok h (by simp [framePtrs]), Res.ok_bind, use_ok h (by simp [framePtrs]), Res.ok_bind,
    slotUse_ok h hw.arr hc (by intro p hp; simp at hp; simp [framePtrs, hp]), Res.ok_bind, readAt_ok hc]

theorem dmAt_ok {σ : Mem} {df : DMFrame} {l : List Nat} {r c : Nat} {op : Mem → DMCol → Res (Mem × DMCol)}
    (hw : FrameWf df) (hr : r < df.nRows) (hc : c < df.cols.length) (h : Owns σ (framePtrs df ++ l))
    (hop : ∀ rest, (∀ q, (framePtrs df ++ l).count q = (colPtrs df.cols[c] ++ rest).count q) →
      (∀ (d : Nat) (x : DMCol), d ≠ c → df.cols[d]? = some x → ∀ q ∈ colPtrs x, q ∈ rest) → (∀ q ∈ l, q ∈ rest) →
      ∃ σ' dc', op σ df.cols[c] = .ok (σ', dc') ∧ Owns σ' (colPtrs dc' ++ rest) ∧ ColWf dc' df.nRows ∧
        dc'.type = df.cols[c].type) :
    ∃ σ' dc', dmAt σ df r c op = .ok (σ', { df with cols := df.cols.set c dc' }) ∧
      Owns σ' (framePtrs { df with cols := df.cols.set c dc' } ++ l) ∧
      FrameWf { df with cols := df.cols.set c dc' } ∧ dc'.type = df.cols[c].type := by
  obtain ⟨rest, f1, f2, f3⟩ := focusAt colPtrs (List.getElem?_eq_getElem hc)
  obtain ⟨σ1, dc, e1, h1, w1, t1⟩ := hop (rest ++ ([df.self, df.colsSelf] ++ df.arr.toList) ++ l) (by
    intro q
    simp only [framePtrs, List.count_append, f1]
    omega) (by
    intro d x hd hx q hq
    simp [f3 d x hd hx q hq]) (by
    intro q hq
    simp [hq])
  refine ⟨σ1, dc, ?_, h1.swap ?_, ⟨by simpa using hw.arr, ?_⟩, t1⟩
  · rw [dmAt, if_pos ⟨hr, hc⟩, dmColAt_ok hw hc h, Res.ok_bind, use_ok h, Res.ok_bind, e1, Res.ok_bind,
      writeAt_ok _ hc]
    · rfl
    · rw [← List.count_pos_iff]
      simp only [framePtrs, List.count_append, f1]
      have : 0 < List.count df.cols[c].self (colPtrs df.cols[c]) := by
        rw [List.count_pos_iff]
        simp [colPtrs]
      omega
  · intro q
    simp only [framePtrs, List.count_append, f2]
    omega
  · intro x hx
    rcases List.mem_or_eq_of_mem_set hx with hx | rfl
    · exact hw.cols x hx
    · exact w1

theorem frame_str {df : DMFrame} {c p : Nat} {l rest : List Nat} (hc : c < df.cols.length)
    (hr : ∀ (d : Nat) (x : DMCol), d ≠ c → df.cols[d]? = some x → ∀ q ∈ colPtrs x, q ∈ rest) (hl : ∀ q ∈ l, q ∈ rest)
    (hp : p ∈ frameStrs df ++ l) : p ∈ colStrs df.cols[c] ++ rest := by
  rw [List.mem_append] at hp ⊢
  rcases hp with hp | hp
  · obtain ⟨x, hx, hpx⟩ := List.mem_flatMap.mp hp
    obtain ⟨d, hd⟩ := List.mem_iff_getElem?.mp hx
    by_cases hdc : d = c
    · subst hdc
      rw [List.getElem?_eq_getElem hc] at hd
      cases hd
      exact Or.inl hpx
    · refine Or.inr (hr d x hdc hd p ?_)
      have := strs_sub (l := []) (by simpa using hpx)
      simpa using this
  · exact Or.inr (hl p hp)

theorem dmSetFactor_ok {σ : Mem} {df : DMFrame} {l : List Nat} {r c : Nat} {s : MSrc} (k : Nat)
    (hw : FrameWf df) (hr : r < df.nRows) (hc : c < df.cols.length) (ht : df.cols[c].type = .factor) (hn : s ≠ .null)
    (hs : ∀ p, s = .ptr p → p ∈ frameStrs df ++ l) (h : Owns σ (framePtrs df ++ l)) :
    ∃ σ' dc', dmSetFactor σ df r c s k = .ok (σ', { df with cols := df.cols.set c dc' }) ∧
      Owns σ' (framePtrs { df with cols := df.cols.set c dc' } ++ l) ∧
      FrameWf { df with cols := df.cols.set c dc' } ∧ dc'.type = .factor := by
  rw [dmSetFactor, if_neg hn]
  obtain ⟨σ', dc', e, h', w', t'⟩ := dmAt_ok (op := dmColSetFactor s k r) hw hr hc h (by
    intro rest e1 e2 e3
    exact dmColSetFactor_ok k (hw.cols _ (List.getElem_mem hc)) hr ht hn (h.swap e1)
      (fun p hp => frame_str hc e2 e3 (hs p hp)))
  exact ⟨σ', dc', e, h', w', t'.trans ht⟩

theorem dmFactorLoop_ok {σ : Mem} {df : DMFrame} {c : Nat} {dc : DMCol} (ks : Nat → Nat) (n i : Nat)
    (hw : FrameWf df) (hd : ColWf dc df.nRows) (hi : i + n = df.nRows) (hc : c < df.cols.length)
    (ht : df.cols[c].type = .factor) {l : List Nat} (h : Owns σ (framePtrs df ++ (colPtrs dc ++ l))) :
    ∃ σ' dc', dmFactorLoop c dc ks σ df i n = .ok (σ', { df with cols := df.cols.set c dc' }) ∧
      Owns σ' (framePtrs { df with cols := df.cols.set c dc' } ++ (colPtrs dc ++ l)) ∧
      FrameWf { df with cols := df.cols.set c dc' } := by
  induction n generalizing σ df i with
  | zero =>
    refine ⟨σ, df.cols[c], ?_, ?_, ?_⟩
    · rw [List.set_getElem_self]
      rfl
    · rw [List.set_getElem_self]
      exact h
    · rw [List.set_getElem_self]
      exact hw
  | succ n ih =>
    have hlt : i < dc.elems.length := by rw [hd.len]; omega
    have hs := slotUse_ok h hd.arr (i := i) (by omega) (by intro p hp; simp at hp; simp [colPtrs, hp])
    have one : ∃ σ' dc', dmFactorOne σ df c dc i (ks i) dc.elems[i] = .ok (σ', { df with cols := df.cols.set c dc' }) ∧
        Owns σ' (framePtrs { df with cols := df.cols.set c dc' } ++ (colPtrs dc ++ l)) ∧
        FrameWf { df with cols := df.cols.set c dc' } ∧ dc'.type = .factor := by
      cases he : dc.elems[i] with
      | none =>
        refine ⟨σ, df.cols[c], ?_, ?_, ?_, ht⟩
        · rw [dmFactorOne, hs, List.set_getElem_self]
          rfl
        · rw [List.set_getElem_self]
          exact h
        · rw [List.set_getElem_self]
          exact hw
      | some p =>
        have hp : p ∈ colPtrs dc := by
          simp only [colPtrs, List.mem_append, List.mem_flatMap]
          exact Or.inl (Or.inr ⟨some p, by rw [← he]; exact List.getElem_mem hlt, by simp⟩)
        rw [dmFactorOne, hs, Res.ok_bind, use_ok h (by simp [hp]), Res.ok_bind]
        refine dmSetFactor_ok (ks i) hw (by omega) hc ht ?_ ?_ h
        · unfold dmLevelSrc
          split <;> simp
        · intro q hq
          unfold dmLevelSrc at hq
          split at hq
          · cases hq
            simp [hp]
          · cases hq
    obtain ⟨σ1, dc1, e1, h1, w1, t1⟩ := one
    obtain ⟨σ2, dc2, e2, h2, w2⟩ := ih (df := { df with cols := df.cols.set c dc1 }) (i + 1) w1 hd (by simp; omega)
      (by simpa using hc) (by simpa using t1) h1
    refine ⟨σ2, dc2, ?_, ?_, ?_⟩
    · rw [dmFactorLoop, readAt_ok hlt, Res.ok_bind, e1, Res.ok_bind]
      simpa using e2
    · simpa using h2
    · simpa using w2

theorem dmMakeFactor_ok {σ : Mem} {df : DMFrame} {c : Nat} {l : List Nat} (ks : Nat → Nat) (hw : FrameWf df)
    (hc : c < df.cols.length) (h : Owns σ (framePtrs df ++ l)) :
    ∃ σ' df', dmMakeFactor σ df c ks = .ok (σ', df') ∧ Owns σ' (framePtrs df' ++ l) ∧ FrameWf df' := by
  have hcw := hw.cols _ (List.getElem_mem hc)
  have hmem : ∀ q ∈ colPtrs df.cols[c], q ∈ framePtrs df := by
    intro q hq
    simp only [framePtrs, List.mem_append, List.mem_flatMap]
    exact Or.inr ⟨_, List.getElem_mem hc, hq⟩
  rw [dmMakeFactor, if_pos hc, dmColAt_ok hw hc h, Res.ok_bind,
    use_ok h (List.mem_append_left _ (hmem _ (by simp [colPtrs]))), Res.ok_bind]
  by_cases ht : df.cols[c].type = .factor
  · rw [if_pos ht]
    exact ⟨σ, df, rfl, h, hw⟩
  · rw [if_neg ht]
    obtain ⟨σ1, dc1, e1, h1, w1, t1⟩ := dmColNew_ok (type := .factor) (s := MSrc.of df.cols[c].label) df.nRows (by
        have := hcw.label
        cases hlab : df.cols[c].label with
        | none => exact absurd hlab this
        | some p => simp [MSrc.of]) h
      (srcOf_mem (by
        intro q hq
        refine List.mem_append_left _ (hmem q ?_)
        simp only [colPtrs, List.mem_append]
        simp [hq]))
    obtain ⟨rest, f1, f2, -⟩ := focusAt colPtrs (List.getElem?_eq_getElem hc)
    have w1' : FrameWf { df with cols := df.cols.set c dc1 } := by
      refine ⟨by simpa using hw.arr, ?_⟩
      intro x hx
      rcases List.mem_or_eq_of_mem_set hx with hx | rfl
      · exact hw.cols x hx
      · exact w1
    obtain ⟨σ2, dc2, e2, h2, w2⟩ := dmFactorLoop_ok (df := { df with cols := df.cols.set c dc1 }) (c := c)
      (dc := df.cols[c]) ks df.nRows 0 w1' hcw (by simp) (by simpa using hc) (by simpa using t1) (l := l) (h1.swap (by
        intro q
        simp only [framePtrs, List.count_append, f1, f2]
        omega))
    obtain ⟨σ3, e3, h3⟩ := dmColFree_ok (l := framePtrs { df with cols := (df.cols.set c dc1).set c dc2 } ++ l) hcw
      (h2.swap (by
        intro q
        simp only [List.count_append]
        omega))
    refine ⟨σ3, _, ?_, h3, w2⟩
    rw [e1, Res.ok_bind, writeAt_ok _ hc, Res.ok_bind]
    simp only
    rw [e2, Res.ok_bind]
    simp only
    rw [e3]
    rfl

theorem dmAddColumn_ok {σ : Mem} {df : DMFrame} {type : DCT} {s : MSrc} {l : List Nat} (hw : FrameWf df)
    (hn : s ≠ .null) (h : Owns σ (framePtrs df ++ l)) (hs : ∀ p, s = .ptr p → p ∈ framePtrs df ++ l) :
    ∃ σ' df', dmAddColumn σ df type s = .ok (σ', df') ∧ Owns σ' (framePtrs df' ++ l) ∧ FrameWf df' ∧
      df'.cols.length = df.cols.length + 1 ∧ df'.nRows = df.nRows := by
  obtain ⟨σ1, dc, e1, h1, w1, -⟩ := dmColNew_ok (type := type) df.nRows hn h hs
  obtain ⟨σ2, a2, c2, e2, h2, w2⟩ := memEnsure_ok (df.cols.length + 1) (arr := df.arr)
    (l := colPtrs dc ++ (framePtrs { df with arr := none } ++ l)) (h1.swap (by
      intro q
      simp only [framePtrs, List.count_append, Option.toList_none, List.count_nil]
      omega)) hw.arr
  have hu := slotUse_ok h2 w2 (Nat.lt_succ_self _) (by intro p hp; exact List.mem_append_left _ hp)
  refine ⟨σ2, { df with arr := a2, cap := c2, cols := df.cols ++ [dc] }, ?_, h2.swap ?_, ⟨by simpa using w2, ?_⟩,
    by simp, rfl⟩
  · rw [dmAddColumn, if_neg hn, use_ok h (by simp [framePtrs]), Res.ok_bind, e1, Res.ok_bind]
    simp only
    rw [use_ok h1 (by simp [framePtrs]), Res.ok_bind, e2, Res.ok_bind]
    simp only
    rw [hu]
    rfl
  · intro q
    simp only [framePtrs, List.count_append, Option.toList_none, List.count_nil, List.flatMap_append, List.flatMap_cons,
      List.flatMap_nil]
    omega
  · intro x hx
    simp only [List.mem_append, List.mem_singleton] at hx
    rcases hx with hx | rfl
    · exact hw.cols x hx
    · exact w1

theorem dmAddRowLoop_ok {σ : Mem} {df : DMFrame} {l : List Nat} {n : Nat} (ha : ArrFits df.arr df.cap n)
    (hp : ∀ p ∈ df.arr.toList, p ∈ l) (dcs : List DMCol) (i : Nat) (hi : i + dcs.length ≤ n)
    (hm : df.nRows < 2147483647)
    (hw : ∀ dc ∈ dcs, ColWf dc df.nRows) (h : Owns σ (dcs.flatMap colPtrs ++ l)) :
    ∃ σ' dcs', dmAddRowLoop σ df i dcs = .ok (σ', dcs') ∧ Owns σ' (dcs'.flatMap colPtrs ++ l) ∧
      dcs'.length = dcs.length ∧ ∀ dc ∈ dcs', ColWf dc (df.nRows + 1) := by
  induction dcs generalizing σ i l with
  | nil => exact ⟨σ, [], rfl, h, rfl, by simp⟩
  | cons dc dcs ih =>
    rw [List.length_cons] at hi
    have hcw := hw dc (by simp)
    obtain ⟨σ1, dc1, e1, h1, w1, -, -, -⟩ := dmGrow_ok hcw (m := df.nRows + 1) (by omega)
      (l := dcs.flatMap colPtrs ++ l) (by simpa using h)
    obtain ⟨σ2, dcs2, e2, h2, n2, w2⟩ := ih (σ := σ1) (l := colPtrs dc1 ++ l)
      (fun p hp' => List.mem_append_right _ (hp p hp')) (i + 1) (by omega)
      (fun x hx => hw x (by simp [hx])) (h1.swap (by
        intro q
        simp only [List.count_append]
        omega))
    refine ⟨σ2, dc1 :: dcs2, ?_, h2.swap ?_, by simp [n2], ?_⟩
    · rw [dmAddRowLoop, slotUse_ok h ha (i := i) (by omega) (fun p hp' => List.mem_append_right _ (hp p hp')),
        Res.ok_bind, dmColAppendRow, use_ok h (by simp [colPtrs]), Res.ok_bind, if_pos (by rw [hcw.len]; exact hm),
        hcw.len, e1, Res.ok_bind]
      simp only
      rw [e2]
      rfl
    · intro q
      simp only [List.flatMap_cons, List.count_append]
      omega
    · intro x hx
      rcases List.mem_cons.mp hx with rfl | hx
      · exact w1
      · exact w2 x hx

/-- An operation has indices of rows and columns that there are, a column of its type, strings that are not `NULL`. -/
def DMOp.valid (df : DMFrame) : DMOp → Bool
  | .addColumn _ s => s ≠ .null
  | .addRow => df.cols = [] ∨ df.nRows < 2147483647
  | .setNa r c => r < df.nRows ∧ c < df.cols.length
  | .setString r c s => s ≠ .null ∧ r < df.nRows ∧ (df.cols[c]?).map DMCol.type = some .string
  | .setInt r c => r < df.nRows ∧ (df.cols[c]?).map DMCol.type = some .int
  | .setDouble r c => r < df.nRows ∧ (df.cols[c]?).map DMCol.type = some .double
  | .setBool r c => r < df.nRows ∧ (df.cols[c]?).map DMCol.type = some .bool
  | .setFactor r c s _ => s ≠ .null ∧ r < df.nRows ∧ (df.cols[c]?).map DMCol.type = some .factor
  | .makeFactor c _ => c < df.cols.length

/-- A string of the program, or one that it has from the frame. -/
def srcFits (df : DMFrame) : MSrc → Bool
  | .ptr p => p ∈ frameStrs df
  | _ => true

/-- The element at row `r` of column `c`. -/
def dmElem (df : DMFrame) (r c : Nat) : Option Nat := ((df.cols[c]?).bind (fun dc => dc.elems[r]?)).join

/-- The strings of an operation come from the program or from the frame; an element is not set to itself. -/
def DMOp.fits (df : DMFrame) : DMOp → Bool
  | .addColumn _ s => srcFits df s
  | .setString r c s => srcFits df s && decide (∀ p, dmElem df r c = some p → s ≠ .ptr p)
  | .setFactor _ _ s _ => srcFits df s
  | _ => true

theorem typeAt {df : DMFrame} {c : Nat} {t : DCT} (h : (df.cols[c]?).map DMCol.type = some t) :
    ∃ hc : c < df.cols.length, df.cols[c].type = t := by
  by_cases hc : c < df.cols.length
  · rw [List.getElem?_eq_getElem hc] at h
    exact ⟨hc, by simpa using h⟩
  · rw [List.getElem?_eq_none (by omega)] at h
    cases h

theorem strs_frame {df : DMFrame} {p : Nat} (h : p ∈ frameStrs df) : p ∈ framePtrs df := by
  obtain ⟨x, hx, hpx⟩ := List.mem_flatMap.mp h
  have := strs_sub (l := []) (by simpa using hpx)
  simp only [framePtrs, List.mem_append, List.mem_flatMap]
  exact Or.inr ⟨x, hx, by simpa using this⟩

theorem srcFits_mem {df : DMFrame} {s : MSrc} (h : srcFits df s = true) : ∀ p, s = .ptr p → p ∈ frameStrs df := by
  intro p hp
  subst hp
  simpa [srcFits] using h

theorem dmSetPlain_ok {σ : Mem} {df : DMFrame} {l : List Nat} {r c : Nat} {t : DCT} (hw : FrameWf df)
    (hr : r < df.nRows) (ht : (df.cols[c]?).map DMCol.type = some t) (h : Owns σ (framePtrs df ++ l)) :
    ∃ σ' df', dmSetPlain σ df t r c = .ok (σ', df') ∧ Owns σ' (framePtrs df' ++ l) ∧ FrameWf df' := by
  obtain ⟨hc, ht⟩ := typeAt ht
  obtain ⟨σ', dc', e, h', w', -⟩ := dmAt_ok (op := dmColSetPlain t r) hw hr hc h (by
    intro rest e1 _ _
    exact dmColSetPlain_ok (hw.cols _ (List.getElem_mem hc)) hr ht (h.swap e1))
  exact ⟨σ', _, e, h', w'⟩

theorem dmAddRow_ok {σ : Mem} {df : DMFrame} {l : List Nat} (hw : FrameWf df)
    (hv : df.cols = [] ∨ df.nRows < 2147483647) (h : Owns σ (framePtrs df ++ l)) :
    ∃ σ' df', dmAddRow σ df = .ok (σ', df') ∧ Owns σ' (framePtrs df' ++ l) ∧ FrameWf df' ∧
      df'.cols.length = df.cols.length ∧ df'.nRows = df.nRows + 1 := by
  have key : ∃ σ' dcs', dmAddRowLoop σ df 0 df.cols = .ok (σ', dcs') ∧
      Owns σ' (dcs'.flatMap colPtrs ++ ([df.self, df.colsSelf] ++ df.arr.toList ++ l)) ∧
      dcs'.length = df.cols.length ∧ ∀ dc ∈ dcs', ColWf dc (df.nRows + 1) := by
    have h0 : Owns σ (df.cols.flatMap colPtrs ++ ([df.self, df.colsSelf] ++ df.arr.toList ++ l)) := h.swap (by
      intro q
      simp only [framePtrs, List.count_append]
      omega)
    rcases hv with hv | hv
    · rw [hv] at h0 ⊢
      exact ⟨σ, [], rfl, h0, rfl, by simp⟩
    · exact dmAddRowLoop_ok hw.arr (by intro p hp; simp at hp; simp [hp]) df.cols 0 (by omega) hv hw.cols h0
  obtain ⟨σ', dcs, e, h', n', w'⟩ := key
  refine ⟨σ', { df with nRows := df.nRows + 1, cols := dcs }, ?_, h'.swap ?_, ⟨by rw [n']; exact hw.arr, w'⟩, n', rfl⟩
  · rw [dmAddRow, use_ok h (by simp [framePtrs]), Res.ok_bind, use_ok h (by simp [framePtrs]), Res.ok_bind, e]
    rfl
  · intro q
    simp only [framePtrs, List.count_append]
    omega

/-- Every operation of a data frame with valid arguments uses and frees only allocated blocks; afterwards the allocated
blocks are those of the frame, each once, and the rest of the memory is as it was. -/
theorem c111_step_partial {σ : Mem} {df : DMFrame} {l : List Nat} (op : DMOp) (hv : op.valid df = true)
    (hf : op.fits df = true) (hw : FrameWf df) (h : Owns σ (framePtrs df ++ l)) :
    ∃ σ' df', dfmStep σ df op = .ok (σ', df') ∧ Owns σ' (framePtrs df' ++ l) ∧ FrameWf df' := by
  cases op with
  | addColumn type s =>
    obtain ⟨σ', df', e, h', w', -, -⟩ := dmAddColumn_ok (type := type) hw (by simpa [DMOp.valid] using hv) h (fun p hp =>
      List.mem_append_left _ (strs_frame (srcFits_mem (by simpa [DMOp.fits] using hf) p hp)))
    exact ⟨σ', df', e, h', w'⟩
  | addRow =>
    obtain ⟨σ', df', e, h', w', -, -⟩ := dmAddRow_ok hw (by simpa [DMOp.valid] using hv) h
    exact ⟨σ', df', e, h', w'⟩
  | setNa r c =>
    have hv : r < df.nRows ∧ c < df.cols.length := by simpa [DMOp.valid] using hv
    obtain ⟨σ', dc', e, h', w', -⟩ := dmAt_ok (op := fun σ dc => dmNa σ dc r) hw hv.1 hv.2 h (by
      intro rest e1 _ _
      obtain ⟨σ', dc', a1, a2, a3, -, a5⟩ := dmNa_ok (hw.cols _ (List.getElem_mem hv.2)) hv.1 (h.swap e1)
      exact ⟨σ', dc', a1, a2, a3, by rw [a5]⟩)
    exact ⟨σ', _, e, h', w'⟩
  | setString r c s =>
    have hv : s ≠ .null ∧ r < df.nRows ∧ (df.cols[c]?).map DMCol.type = some .string := by
      simpa [DMOp.valid] using hv
    rw [DMOp.fits, Bool.and_eq_true, decide_eq_true_iff] at hf
    obtain ⟨hn, hr, ht⟩ := hv
    obtain ⟨hc, ht⟩ := typeAt ht
    obtain ⟨σ', dc', e, h', w', -⟩ := dmAt_ok (op := dmColSetString s r) hw hr hc h (by
      intro rest e1 _ _
      refine dmColSetString_ok (hw.cols _ (List.getElem_mem hc)) hr ht hn (h.swap e1) (fun p hp => ⟨?_, ?_⟩)
      · rw [← List.count_pos_iff, ← e1, List.count_pos_iff]
        exact List.mem_append_left _ (strs_frame (srcFits_mem hf.1 p hp))
      · intro he
        refine hf.2 p ?_ hp
        rw [dmElem, List.getElem?_eq_getElem hc, Option.bind_some, he]
        rfl)
    refine ⟨σ', _, ?_, h', w'⟩
    rw [dfmStep, dmSetString, if_neg hn, e]
  | setInt r c =>
    have hv : r < df.nRows ∧ (df.cols[c]?).map DMCol.type = some .int := by simpa [DMOp.valid] using hv
    exact dmSetPlain_ok hw hv.1 hv.2 h
  | setDouble r c =>
    have hv : r < df.nRows ∧ (df.cols[c]?).map DMCol.type = some .double := by simpa [DMOp.valid] using hv
    exact dmSetPlain_ok hw hv.1 hv.2 h
  | setBool r c =>
    have hv : r < df.nRows ∧ (df.cols[c]?).map DMCol.type = some .bool := by simpa [DMOp.valid] using hv
    exact dmSetPlain_ok hw hv.1 hv.2 h
  | setFactor r c s k =>
    have hv : s ≠ .null ∧ r < df.nRows ∧ (df.cols[c]?).map DMCol.type = some .factor := by
      simpa [DMOp.valid] using hv
    obtain ⟨hn, hr, ht⟩ := hv
    obtain ⟨hc, ht⟩ := typeAt ht
    obtain ⟨σ', dc', e, h', w', -⟩ := dmSetFactor_ok k hw hr hc ht hn
      (fun p hp => List.mem_append_left _ (srcFits_mem (by simpa [DMOp.fits] using hf) p hp)) h
    exact ⟨σ', _, e, h', w'⟩
  | makeFactor c ks => exact dmMakeFactor_ok ks hw (by simpa [DMOp.valid] using hv) h

theorem dmAt_type {σ : Mem} {df : DMFrame} {l : List Nat} {r c : Nat} {t : DCT} {op : Mem → DMCol → Res (Mem × DMCol)}
    (hw : FrameWf df) (h : Owns σ (framePtrs df ++ l)) (hop : ∀ σ dc, dc.type ≠ t → op σ dc = .fatal)
    (hv : ¬ (r < df.nRows ∧ (df.cols[c]?).map DMCol.type = some t)) : dmAt σ df r c op = .fatal := by
  rw [dmAt]
  by_cases hrc : r < df.nRows ∧ c < df.cols.length
  · rw [if_pos hrc, dmColAt_ok hw hrc.2 h, Res.ok_bind, use_ok h, Res.ok_bind, hop]
    · rfl
    · intro ht
      exact hv ⟨hrc.1, by rw [List.getElem?_eq_getElem hrc.2, Option.map_some, ht]⟩
    · simp only [framePtrs, List.mem_append, List.mem_flatMap]
      exact Or.inl (Or.inr ⟨_, List.getElem_mem hrc.2, by simp [colPtrs]⟩)
  · rw [if_neg hrc]

/-- Every operation with other arguments ends the program; nothing undefined happens before. -/
theorem c111_refused {σ : Mem} {df : DMFrame} {l : List Nat} (op : DMOp) (hv : op.valid df = false)
    (hw : FrameWf df) (h : Owns σ (framePtrs df ++ l)) : dfmStep σ df op = .fatal := by
  cases op with
  | addColumn type s =>
    have hv : s = .null := by simpa [DMOp.valid] using hv
    rw [dfmStep, dmAddColumn, if_pos hv]
  | addRow =>
    have hv : df.cols ≠ [] ∧ 2147483647 ≤ df.nRows := by simpa [DMOp.valid] using hv
    rw [dfmStep, dmAddRow, use_ok h (by simp [framePtrs]), Res.ok_bind, use_ok h (by simp [framePtrs]), Res.ok_bind]
    cases hcs : df.cols with
    | nil => exact absurd hcs hv.1
    | cons dc dcs =>
      have hm : dc ∈ df.cols := by simp [hcs]
      rw [dmAddRowLoop, slotUse_ok h hw.arr (i := 0) (by simp [hcs]) (by intro p hp; simp at hp; simp [framePtrs, hp]),
        Res.ok_bind, dmColAppendRow, use_ok h, Res.ok_bind, if_neg (by rw [(hw.cols dc hm).len]; omega)]
      · rfl
      · simp only [framePtrs, List.mem_append, List.mem_flatMap]
        exact Or.inl (Or.inr ⟨_, hm, by simp [colPtrs]⟩)
  | setNa r c =>
    have hv : ¬ (r < df.nRows ∧ c < df.cols.length) := by simpa [DMOp.valid] using hv
    rw [dfmStep, dmSetNa, dmAt, if_neg hv]
  | setString r c s =>
    rw [dfmStep, dmSetString]
    by_cases hn : s = .null
    · rw [if_pos hn]
    · rw [if_neg hn]
      refine dmAt_type (t := .string) hw h (fun σ dc hd => by rw [dmColSetString, if_neg hd]) ?_
      simpa [DMOp.valid, hn] using hv
  | setInt r c =>
    exact dmAt_type (t := .int) hw h (fun σ dc hd => by rw [dmColSetPlain, if_neg hd]) (by simpa [DMOp.valid] using hv)
  | setDouble r c =>
    exact dmAt_type (t := .double) hw h (fun σ dc hd => by rw [dmColSetPlain, if_neg hd])
      (by simpa [DMOp.valid] using hv)
  | setBool r c =>
    exact dmAt_type (t := .bool) hw h (fun σ dc hd => by rw [dmColSetPlain, if_neg hd])
      (by simpa [DMOp.valid] using hv)
  | setFactor r c s k =>
    rw [dfmStep, dmSetFactor]
    by_cases hn : s = .null
    · rw [if_pos hn]
    · rw [if_neg hn]
      refine dmAt_type (t := .factor) hw h (fun σ dc hd => by rw [dmColSetFactor, if_neg hd]) ?_
      simpa [DMOp.valid, hn] using hv
  | makeFactor c ks =>
    have hv : ¬ c < df.cols.length := by simpa [DMOp.valid] using hv
    rw [dfmStep, dmMakeFactor, if_neg hv]

/-- The strings of every operation are strings that there are at that time. -/
def dmFit (σ : Mem) (df : DMFrame) : List DMOp → Bool
  | [] => true
  | op :: ops => op.fits df && match dfmStep σ df op with
    | .ok r => dmFit r.1 r.2 ops
    | _ => true

theorem dmRun_ok {σ : Mem} {df : DMFrame} {l : List Nat} (ops : List DMOp) (hf : dmFit σ df ops = true)
    (hw : FrameWf df) (h : Owns σ (framePtrs df ++ l)) :
    dfmRun σ df ops = .fatal ∨
      ∃ σ' df', dfmRun σ df ops = .ok (σ', df') ∧ Owns σ' (framePtrs df' ++ l) ∧ FrameWf df' := by
  induction ops generalizing σ df with
  | nil => exact Or.inr ⟨σ, df, rfl, h, hw⟩
  | cons op ops ih =>
    rw [dmFit, Bool.and_eq_true] at hf
    cases hv : op.valid df with
    | false =>
      left
      rw [dfmRun, c111_refused op hv hw h]
      rfl
    | true =>
      obtain ⟨σ1, df1, e1, h1, w1⟩ := c111_step_partial op hv hf.1 hw h
      rw [e1] at hf
      rw [dfmRun, e1, Res.ok_bind]
      exact ih hf.2 w1 h1

theorem dmAlloc_ok {σ : Mem} {l : List Nat} (h : Owns σ l) :
    Owns (dmAlloc σ).1 (framePtrs (dmAlloc σ).2 ++ l) ∧ FrameWf (dmAlloc σ).2 := by
  refine ⟨(alloc_owns (alloc_owns h)).swap ?_, ⟨by simp [dmAlloc], by simp [dmAlloc]⟩, by simp [dmAlloc]⟩
  intro q
  simp only [dmAlloc, framePtrs, List.count_append, List.count_cons, List.count_nil, Option.toList_none,
    List.flatMap_nil]
  omega

/-- From `nx_data_frame_alloc` to `nx_data_frame_free`: a program that does not set an element to itself is ended by an
assertion, or it leaves no block behind. Nothing undefined happens. -/
theorem c111_life_partial (k : Nat) (ops : List DMOp)
    (hf : dmFit (dmAlloc ⟨[], k⟩).1 (dmAlloc ⟨[], k⟩).2 ops = true) :
    dfmRun (dmAlloc ⟨[], k⟩).1 (dmAlloc ⟨[], k⟩).2 ops = .fatal ∨
      ∃ σ df σ', dfmRun (dmAlloc ⟨[], k⟩).1 (dmAlloc ⟨[], k⟩).2 ops = .ok (σ, df) ∧ dmFree σ df = .ok σ' ∧
        σ'.live = [] := by
  have h0 : Owns ⟨[], k⟩ [] := ⟨by simp, by simp, by simp⟩
  obtain ⟨h1, w1⟩ := dmAlloc_ok h0
  rcases dmRun_ok ops hf w1 h1 with e | ⟨σ, df, e, h, w⟩
  · exact Or.inl e
  · obtain ⟨σ', e', h'⟩ := c111_free w h
    refine Or.inr ⟨σ, df, σ', e, e', ?_⟩
    rw [List.eq_nil_iff_forall_not_mem]
    intro q hq
    have := h'.same q
    rw [List.count_nil, List.count_eq_zero] at this
    exact this hq

/-- The element is freed before its string is copied: a string that is set to itself is read after it was freed. -/
theorem c111_self_false {σ : Mem} {df : DMFrame} {l : List Nat} {r c p : Nat} (hw : FrameWf df)
    (h : Owns σ (framePtrs df ++ l)) (hr : r < df.nRows) (ht : (df.cols[c]?).map DMCol.type = some .string)
    (he : dmElem df r c = some p) : dfmStep σ df (.setString r c (.ptr p)) = .ub := by
  obtain ⟨hc, ht⟩ := typeAt ht
  have hcw := hw.cols _ (List.getElem_mem hc)
  have hlt : r < df.cols[c].elems.length := by rw [hcw.len]; exact hr
  have hep : df.cols[c].elems[r] = some p := by
    rw [dmElem, List.getElem?_eq_getElem hc, Option.bind_some, List.getElem?_eq_getElem hlt] at he
    exact he
  have hself : df.cols[c].self ∈ framePtrs df ++ l := by
    simp only [framePtrs, List.mem_append, List.mem_flatMap]
    exact Or.inl (Or.inr ⟨_, List.getElem_mem hc, by simp [colPtrs]⟩)
  obtain ⟨rest, f1, f2, -⟩ := focusAt colPtrs (List.getElem?_eq_getElem hc)
  obtain ⟨σ1, dc1, e1, h1, -, -, e5⟩ := dmNa_ok (l := rest ++ ([df.self, df.colsSelf] ++ df.arr.toList) ++ l) hcw hr
    (h.swap (by
      intro q
      simp only [framePtrs, List.count_append, f1]
      omega))
  obtain ⟨rest', g1, g2, -⟩ := focusAt Option.toList (List.getElem?_eq_getElem hlt)
  have hfree : p ∉ σ1.live := by
    rw [← List.count_eq_zero, h1.same, e5]
    have h2 := h.same p
    have h3 := h.once p
    simp only [framePtrs, List.count_append, f1, colPtrs, g1, hep, Option.toList_some, List.count_cons_self,
      List.count_nil] at h2
    simp only [colPtrs, List.count_append, g2, Option.toList_none, List.count_nil]
    omega
  rw [dfmStep, dmSetString, if_neg (by simp), dmAt, if_pos ⟨hr, hc⟩, dmColAt_ok hw hc h, Res.ok_bind, use_ok h hself,
    Res.ok_bind, dmColSetString, if_pos ht, e1, Res.ok_bind]
  simp only
  rw [memStrdup, if_neg (by simp), memDup, memUse, if_neg hfree]
  rfl

/-- A program with all operations; the strings of some come from the frame. -/
def dmDemo : List DMOp :=
  [.addColumn .string .ext, .addColumn .int .ext, .addRow, .setString 0 0 .ext, .addColumn .factor (.ptr 9),
    .setInt 0 1, .setFactor 0 2 .ext 0, .setFactor 0 2 .ext 0, .setFactor 0 2 .ext 1, .addRow, .setString 1 0 (.ptr 9),
    .setFactor 1 2 .ext 5, .addColumn .bool .ext, .addColumn .double .ext, .setBool 0 3, .setDouble 1 4,
    .makeFactor 0 (fun i => i), .makeFactor 1 (fun _ => 0), .makeFactor 2 (fun _ => 0), .setNa 0 2]

/-- The number of blocks after a program and in all. -/
def dmBlocks (ops : List DMOp) : Option (Nat × Nat) :=
  match dfmRun (dmAlloc ⟨[], 0⟩).1 (dmAlloc ⟨[], 0⟩).2 ops with
  | .ok r => some (r.1.live.length, r.1.next)
  | _ => none

example : dmFit (dmAlloc ⟨[], 0⟩).1 (dmAlloc ⟨[], 0⟩).2 dmDemo = true := by decide +kernel

example : dmBlocks dmDemo = some (36, 49) := by decide +kernel

end Nx
