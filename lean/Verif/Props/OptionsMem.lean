import Verif.Model.OptionsMem
import Verif.Lemmas.Ledger

/-!
# C110: memory of the command line options
-/

namespace Nx

/-- The blocks of an option. -/
def dataPtrs (d : OMData) : List Nat :=
  [d.self] ++ d.name.toList ++ d.shortName.toList ++ d.help.toList ++ d.s.toList ++ d.dflt.toList ++ d.r.toList ++
    d.elems.flatMap Option.toList

/-- The blocks of a node of the map. -/
def nodePtrs (n : OMNode) : List Nat := [n.self] ++ n.key.toList

/-- The blocks of the rest. -/
def restPtrs : Option OMData → List Nat
  | none => []
  | some d => dataPtrs d

/-- All blocks of the options. -/
def optPtrs (o : OMOpts) : List Nat :=
  [o.self] ++ o.progName.toList ++ o.list.flatMap dataPtrs ++ [o.mapArr] ++
    o.map.flatMap (fun b => b.flatMap nodePtrs) ++ restPtrs o.rest ++ o.header.toList ++ o.footer.toList

/-- An option has only the blocks that belong to its type. -/
structure DataWf (d : OMData) : Prop where
  str : d.type ≠ .string → d.s = none ∧ d.dflt = none
  rest : d.type ≠ .rest → d.r = none
  arr : d.r = none → d.elems = []

/-- The same for all options; the rest has the type of the rest, the map has its size. -/
structure OptWf (o : OMOpts) : Prop where
  list : ∀ d ∈ o.list, DataWf d
  rest : ∀ d, o.rest = some d → DataWf d ∧ d.type = .rest
  map : o.map.length = 32

theorem count_flatMap_set {α : Type} (f : α → List Nat) (l : List α) (k : Nat) (x y : α) (hk : l[k]? = some x) (q : Nat) :
    ((l.set k y).flatMap f).count q + (f x).count q = (l.flatMap f).count q + (f y).count q := by
  induction l generalizing k with
  | nil => simp at hk
  | cons a l ih =>
    cases k with
    | zero =>
      obtain rfl : a = x := by simpa using hk
      simp only [List.set_cons_zero, List.flatMap_cons, List.count_append]
      omega
    | succ k =>
      have := ih k (by simpa using hk)
      simp only [List.set_cons_succ, List.flatMap_cons, List.count_append]
      omega

theorem omSetName_ok {σ : Mem} {d : OMData} {n : Nat} {l : List Nat} (long : Bool)
    (h : Owns σ ([n] ++ dataPtrs d ++ l)) :
    ∃ σ' d', omSetName σ d n long = .ok (σ', d') ∧ Owns σ' (dataPtrs d' ++ l) ∧
      d'.type = d.type ∧ d'.s = d.s ∧ d'.dflt = d.dflt ∧ d'.r = d.r ∧ d'.elems = d.elems := by
  unfold omSetName
  rw [use_ok h (by simp), Res.ok_bind]
  cases long with
  | true =>
    rw [if_pos rfl]
    obtain ⟨σ1, p, e1, h1⟩ := redup_owns (d := d.name) (src := .ptr n)
      (l := [n] ++ dataPtrs { d with name := none } ++ l)
      (h.swap (by intro q; simp only [dataPtrs, List.count_append, Option.toList_none, List.count_nil]; omega))
      (by intro q hq; cases hq; simp)
    obtain ⟨σ2, e2, h2⟩ := free_owns (p := n) (l := dataPtrs { d with name := p } ++ l)
      (h1.swap (by
        intro q
        simp only [dataPtrs, List.count_append, Option.toList_none, List.count_nil, List.count_cons]
        omega))
    refine ⟨σ2, { d with name := p }, ?_, h2, rfl, rfl, rfl, rfl, rfl⟩
    rw [e1, Res.ok_bind]
    simp only
    rw [e2]
    rfl
  | false =>
    rw [if_neg (by decide)]
    obtain ⟨σ1, p, e1, h1⟩ := redup_owns (d := d.shortName) (src := .ptr n)
      (l := [n] ++ dataPtrs { d with shortName := none } ++ l)
      (h.swap (by intro q; simp only [dataPtrs, List.count_append, Option.toList_none, List.count_nil]; omega))
      (by intro q hq; cases hq; simp)
    obtain ⟨σ2, e2, h2⟩ := free_owns (p := n) (l := dataPtrs { d with shortName := p } ++ l)
      (h1.swap (by
        intro q
        simp only [dataPtrs, List.count_append, Option.toList_none, List.count_nil, List.count_cons]
        omega))
    refine ⟨σ2, { d with shortName := p }, ?_, h2, rfl, rfl, rfl, rfl, rfl⟩
    rw [e1, Res.ok_bind]
    simp only
    rw [e2]
    rfl

/-- Two records agree in what their type allows. -/
def SameValue (d d' : OMData) : Prop :=
  d'.type = d.type ∧ d'.s = d.s ∧ d'.dflt = d.dflt ∧ d'.r = d.r ∧ d'.elems = d.elems

theorem omSetNames_ok {σ : Mem} {d : OMData} {l : List Nat} (long : Bool) (long1 : Option Bool)
    (h : Owns σ (dataPtrs d ++ l)) :
    ∃ σ' d', omSetNames σ d long long1 = .ok (σ', d') ∧ Owns σ' (dataPtrs d' ++ l) ∧ SameValue d d' := by
  cases long1 with
  | none =>
    have h1 := alloc_owns h
    obtain ⟨σ', d', e, h2, v⟩ := omSetName_ok long (l := l) (n := (memAlloc σ).2) (d := d) (by simpa using h1)
    exact ⟨σ', d', e, h2, v⟩
  | some long1 =>
    have h1 := alloc_owns (alloc_owns h)
    obtain ⟨σ1, d1, e1, h2, v1, v2, v3, v4, v5⟩ := omSetName_ok long (l := [(memAlloc (memAlloc σ).1).2] ++ l)
      (n := (memAlloc σ).2) (d := d) (h1.swap (by
        intro q
        simp only [List.count_append, List.count_cons, List.count_nil]
        omega))
    obtain ⟨σ2, d2, e2, h3, w1, w2, w3, w4, w5⟩ := omSetName_ok long1 (l := l) (n := (memAlloc (memAlloc σ).1).2)
      (d := d1) (h2.swap (by
        intro q
        simp only [List.count_append]
        omega))
    refine ⟨σ2, d2, ?_, h3, w1.trans v1, w2.trans v2, w3.trans v3, w4.trans v4, w5.trans v5⟩
    simp only [omSetNames]
    rw [e1, Res.ok_bind]
    exact e2

theorem argSrc_mem {l : List Nat} (g : Bool) : ∀ p, argSrc g = .ptr p → p ∈ l := by
  intro p hp
  cases g <;> cases hp

theorem omDataNew_ok {σ : Mem} {l : List Nat} (long : Bool) (long1 : Option Bool) (help : Bool) (h : Owns σ l) :
    ∃ σ' d', omDataNew σ long long1 help = .ok (σ', d') ∧ Owns σ' (dataPtrs d' ++ l) ∧
      d'.type = .plain ∧ d'.s = none ∧ d'.dflt = none ∧ d'.r = none ∧ d'.elems = [] := by
  have h1 := alloc_owns h
  obtain ⟨σ1, d1, e1, h2, v1, v2, v3, v4, v5⟩ := omSetNames_ok long long1
    (d := ⟨(memAlloc σ).2, none, none, .plain, none, none, none, [], none⟩) (l := l) (h1.swap (by
      intro q
      simp [dataPtrs, List.count_cons]))
  obtain ⟨σ2, p, e2, h3⟩ := redup_owns (d := d1.help) (src := argSrc help)
    (l := dataPtrs { d1 with help := none } ++ l) (h2.swap (by
      intro q
      simp only [dataPtrs, List.count_append, Option.toList_none, List.count_nil]
      omega)) (argSrc_mem _)
  refine ⟨σ2, { d1 with help := p }, ?_, h3.swap (by
    intro q
    simp only [dataPtrs, List.count_append, Option.toList_none, List.count_nil]
    omega), v1, v2, v3, v4, v5⟩
  simp only [omDataNew]
  rw [e1, Res.ok_bind, e2, Res.ok_bind]
  rfl

/-- The blocks of the map. -/
def mapPtrs (map : List (List OMNode)) : List Nat := map.flatMap (fun b => b.flatMap nodePtrs)

theorem omAddToMap_ok {σ : Mem} {map : List (List OMNode)} {l : List Nat} (key : Option Nat) (bid : Nat)
    (hm : bid < map.length) (hk : ∀ q ∈ key.toList, q ∈ l) (h : Owns σ (mapPtrs map ++ l)) :
    ∃ σ' map', omAddToMap σ map key bid = .ok (σ', map') ∧ Owns σ' (mapPtrs map' ++ l) ∧
      map'.length = map.length := by
  cases key with
  | none => exact ⟨σ, map, rfl, h, rfl⟩
  | some k =>
    have h1 := alloc_owns h
    obtain ⟨σ1, p, e1, h2⟩ := redup_owns (d := none) (src := .ptr k) (by simpa using h1) (by
      intro q hq
      cases hq
      have := hk k (by simp)
      simp [this])
    refine ⟨σ1, map.set bid (⟨(memAlloc σ).2, p⟩ :: map[bid]), ?_, h2.swap ?_, by simp⟩
    · simp only [omAddToMap]
      rw [e1, Res.ok_bind, readAt_ok hm, Res.ok_bind, writeAt_ok _ hm]
      rfl
    · intro q
      have hs := count_flatMap_set (fun b => b.flatMap nodePtrs) map bid map[bid] (⟨(memAlloc σ).2, p⟩ :: map[bid])
        (List.getElem?_eq_getElem hm) q
      simp only [List.flatMap_cons, nodePtrs, List.count_append] at hs
      simp only [mapPtrs, List.count_append, List.count_cons, List.count_nil] at hs ⊢
      omega

theorem optPtrs_add (o : OMOpts) (d : OMData) (map : List (List OMNode)) (q : Nat) :
    (optPtrs { o with list := o.list ++ [d], map := map }).count q + (mapPtrs o.map).count q =
      (optPtrs o).count q + (dataPtrs d).count q + (mapPtrs map).count q := by
  simp only [optPtrs, mapPtrs, List.flatMap_append, List.flatMap_cons, List.flatMap_nil, List.count_append,
    List.append_nil]
  omega

/-- The blocks of the options without those of the map. -/
def otherPtrs (o : OMOpts) : List Nat := optPtrs { o with map := [] }

theorem optPtrs_other (o : OMOpts) (q : Nat) :
    (optPtrs o).count q = (mapPtrs o.map).count q + (otherPtrs o).count q := by
  simp only [optPtrs, otherPtrs, mapPtrs, List.count_append, List.flatMap_nil, List.count_nil]
  omega

theorem omDataAdd_ok {σ : Mem} {o : OMOpts} {d : OMData} (b b1 : Fin 32) (hw : OptWf o) (hd : DataWf d)
    (h : Owns σ (dataPtrs d ++ optPtrs o)) :
    ∃ σ' o', omDataAdd σ o d b b1 = .ok (σ', o') ∧ Owns σ' (optPtrs o') ∧ OptWf o' := by
  obtain ⟨σ1, m1, e1, h1, l1⟩ := omAddToMap_ok (map := o.map) (l := dataPtrs d ++ otherPtrs o) d.name b
    (by rw [hw.map]; exact b.2) (by
      intro q hq
      simp only [dataPtrs, List.mem_append]
      simp [hq]) (h.swap (by
      intro q
      have := optPtrs_other o q
      simp only [List.count_append]
      omega))
  obtain ⟨σ2, m2, e2, h2, l2⟩ := omAddToMap_ok (map := m1) (l := dataPtrs d ++ otherPtrs o) d.shortName b1
    (by rw [l1, hw.map]; exact b1.2) (by
      intro q hq
      simp only [dataPtrs, List.mem_append]
      simp [hq]) h1
  refine ⟨σ2, { o with list := o.list ++ [d], map := m2 }, ?_, h2.swap ?_, ?_, hw.rest, ?_⟩
  · rw [omDataAdd, e1, Res.ok_bind]
    simp only
    rw [e2]
    rfl
  · intro q
    have a1 := optPtrs_add o d m2 q
    have a2 := optPtrs_other o q
    simp only [List.count_append]
    omega
  · intro x hx
    simp only [List.mem_append, List.mem_singleton] at hx
    rcases hx with hx | rfl
    · exact hw.list x hx
    · exact hd
  · simp [l2, l1, hw.map]

theorem omAddPlain_ok {σ : Mem} {o : OMOpts} (long : Bool) (long1 : Option Bool) (help : Bool) (b b1 : Fin 32)
    (hw : OptWf o) (h : Owns σ (optPtrs o)) :
    ∃ σ' o', omAddPlain σ o long long1 help b b1 = .ok (σ', o') ∧ Owns σ' (optPtrs o') ∧ OptWf o' := by
  obtain ⟨σ1, d, e1, h1, v1, v2, v3, v4, v5⟩ := omDataNew_ok long long1 help h
  obtain ⟨σ2, o', e2, h2, w⟩ := omDataAdd_ok b b1 hw (d := d)
    ⟨fun _ => ⟨v2, v3⟩, fun _ => v4, fun _ => v5⟩ h1
  refine ⟨σ2, o', ?_, h2, w⟩
  rw [omAddPlain, e1, Res.ok_bind]
  exact e2

theorem omAddString_ok {σ : Mem} {o : OMOpts} (long : Bool) (long1 : Option Bool) (help dflt : Bool) (b b1 : Fin 32)
    (hw : OptWf o) (h : Owns σ (optPtrs o)) :
    ∃ σ' o', omAddString σ o long long1 help dflt b b1 = .ok (σ', o') ∧ Owns σ' (optPtrs o') ∧ OptWf o' := by
  obtain ⟨σ1, d, e1, h1, v1, v2, v3, v4, v5⟩ := omDataNew_ok long long1 help h
  obtain ⟨σ2, s, e2, h2⟩ := redup_owns (d := d.s) (src := argSrc dflt) (l := dataPtrs d ++ optPtrs o)
    (by rw [v2]; simpa using h1) (argSrc_mem _)
  obtain ⟨σ3, t, e3, h3⟩ := redup_owns (d := d.dflt) (src := argSrc dflt) (l := s.toList ++ (dataPtrs d ++ optPtrs o))
    (by rw [v3]; simpa using h2) (argSrc_mem _)
  obtain ⟨σ4, o', e4, h4, w⟩ := omDataAdd_ok b b1 hw (d := { d with type := .string, s := s, dflt := t })
    ⟨fun hn => absurd rfl hn, fun _ => v4, fun _ => v5⟩ (h3.swap (by
      intro q
      simp only [dataPtrs, List.count_append, v2, v3, Option.toList_none, List.count_nil]
      omega))
  refine ⟨σ4, o', ?_, h4, w⟩
  rw [omAddString, e1, Res.ok_bind]
  simp only
  rw [e2, Res.ok_bind]
  simp only
  rw [e3, Res.ok_bind]
  exact e4

theorem omFreeAll_ok {σ : Mem} {ps : List (Option Nat)} {l : List Nat} (h : Owns σ (ps.flatMap Option.toList ++ l)) :
    ∃ σ', omFreeAll σ ps = .ok σ' ∧ Owns σ' l := by
  induction ps generalizing σ with
  | nil => exact ⟨σ, rfl, by simpa using h⟩
  | cons p ps ih =>
    obtain ⟨σ1, e1, h1⟩ := freeOpt_owns (d := p) (l := ps.flatMap Option.toList ++ l) (by simpa using h)
    obtain ⟨σ2, e2, h2⟩ := ih h1
    exact ⟨σ2, by rw [omFreeAll, e1, Res.ok_bind, e2], h2⟩

/-- The record without the memory of the rest. -/
def noRest (d : OMData) : OMData := { d with r := none, elems := [] }

theorem omFreeRestData_ok {σ : Mem} {d : OMData} {l : List Nat} (hw : DataWf d) (h : Owns σ (dataPtrs d ++ l)) :
    ∃ σ', omFreeRestData σ d = .ok (σ', noRest d) ∧ Owns σ' (dataPtrs (noRest d) ++ l) := by
  cases hr : d.r with
  | none =>
    have he := hw.arr hr
    have hd : noRest d = d := by
      simp only [noRest]
      rw [← hr, ← he]
    rw [hd]
    exact ⟨σ, by simp [omFreeRestData, hr], h⟩
  | some r =>
    have hr' : r ∈ dataPtrs d ++ l := by
      simp [dataPtrs, hr]
    obtain ⟨σ1, e1, h1⟩ := omFreeAll_ok (ps := d.elems) (l := [r] ++ (dataPtrs (noRest d) ++ l)) (h.swap (by
      intro q
      simp only [dataPtrs, noRest, hr, List.count_append, Option.toList_none, Option.toList_some, List.flatMap_nil,
        List.count_nil]
      omega))
    obtain ⟨σ2, e2, h2⟩ := free_owns (p := r) (by simpa using h1)
    refine ⟨σ2, ?_, h2⟩
    simp only [omFreeRestData, hr]
    rw [use_ok h hr', Res.ok_bind, e1, Res.ok_bind, e2]
    rfl

theorem omFreeValue_ok {σ : Mem} {d : OMData} {l : List Nat} (hw : DataWf d)
    (h : Owns σ (d.s.toList ++ d.dflt.toList ++ d.r.toList ++ d.elems.flatMap Option.toList ++ ([d.self] ++ l))) :
    ∃ σ', omFreeValue σ d = .ok σ' ∧ Owns σ' ([d.self] ++ l) := by
  unfold omFreeValue
  cases ht : d.type with
  | plain =>
    have h1 := hw.str (by rw [ht]; decide)
    have h2 := hw.rest (by rw [ht]; decide)
    refine ⟨σ, rfl, ?_⟩
    rw [h1.1, h1.2, h2, hw.arr h2] at h
    simpa using h
  | string =>
    have h2 := hw.rest (by rw [ht]; decide)
    rw [h2, hw.arr h2] at h
    obtain ⟨σ1, e1, q1⟩ := freeOpt_owns (d := d.s) (l := d.dflt.toList ++ ([d.self] ++ l)) (by simpa using h)
    obtain ⟨σ2, e2, q2⟩ := freeOpt_owns q1
    refine ⟨σ2, ?_, q2⟩
    simp only
    rw [e1, Res.ok_bind, e2]
  | rest =>
    have h1 := hw.str (by rw [ht]; decide)
    have h' : Owns σ (dataPtrs { d with name := none, shortName := none, help := none } ++ l) := h.swap (by
      intro q
      simp only [dataPtrs, List.count_append, Option.toList_none, List.count_nil]
      omega)
    obtain ⟨σ1, e1, q1⟩ := omFreeRestData_ok (d := { d with name := none, shortName := none, help := none })
      ⟨hw.str, hw.rest, hw.arr⟩ h'
    have e : ∃ x, omFreeRestData σ d = .ok (σ1, x) := by
      revert e1
      unfold omFreeRestData
      simp only
      cases d.r with
      | none =>
        simp only [Res.ok.injEq, Prod.mk.injEq]
        exact fun h => ⟨d, h.1, rfl⟩
      | some r =>
        simp only
        intro e1
        obtain ⟨u, a1, e1⟩ := Res.bind_eq_ok.1 e1
        obtain ⟨s1, a2, e1⟩ := Res.bind_eq_ok.1 e1
        obtain ⟨s2, a3, e1⟩ := Res.bind_eq_ok.1 e1
        rw [a1, Res.ok_bind, a2, Res.ok_bind, a3, Res.ok_bind]
        simp only [Res.pure_eq, Res.ok.injEq, Prod.mk.injEq] at e1 ⊢
        exact ⟨_, e1.1, rfl⟩
    obtain ⟨x, e⟩ := e
    refine ⟨σ1, ?_, q1.swap ?_⟩
    · simp only
      rw [e]
      rfl
    · intro q
      simp [dataPtrs, noRest, h1.1, h1.2]

theorem omDataFree_ok {σ : Mem} {d : OMData} {l : List Nat} (hw : DataWf d) (h : Owns σ (dataPtrs d ++ l)) :
    ∃ σ', omDataFree σ d = .ok σ' ∧ Owns σ' l := by
  have hs : d.self ∈ dataPtrs d ++ l := by simp [dataPtrs]
  obtain ⟨σ1, e1, h1⟩ := freeOpt_owns (d := d.name) (l := d.shortName.toList ++ (d.help.toList ++ (d.s.toList ++
      d.dflt.toList ++ d.r.toList ++ d.elems.flatMap Option.toList ++ ([d.self] ++ l)))) (h.swap (by
    intro q
    simp only [dataPtrs, List.count_append]
    omega))
  obtain ⟨σ2, e2, h2⟩ := freeOpt_owns h1
  obtain ⟨σ3, e3, h3⟩ := freeOpt_owns h2
  obtain ⟨σ4, e4, h4⟩ := omFreeValue_ok hw h3
  obtain ⟨σ5, e5, h5⟩ := free_owns (by simpa using h4)
  refine ⟨σ5, ?_, h5⟩
  rw [omDataFree, use_ok h hs, Res.ok_bind, e1, Res.ok_bind, e2, Res.ok_bind, e3, Res.ok_bind, e4, Res.ok_bind, e5]

theorem omFreeRest_ok {σ : Mem} {r : Option OMData} {l : List Nat} (hw : ∀ d, r = some d → DataWf d)
    (h : Owns σ (restPtrs r ++ l)) : ∃ σ', omFreeRest σ r = .ok σ' ∧ Owns σ' l := by
  cases r with
  | none => exact ⟨σ, rfl, by simpa [restPtrs] using h⟩
  | some d => exact omDataFree_ok (hw d rfl) h

theorem omAddRest_ok {σ : Mem} {o : OMOpts} (help : Bool) (hw : OptWf o) (h : Owns σ (optPtrs o)) :
    ∃ σ' o', omAddRest σ o help = .ok (σ', o') ∧ Owns σ' (optPtrs o') ∧ OptWf o' := by
  obtain ⟨σ1, d, e1, h1, v1, v2, v3, v4, v5⟩ := omDataNew_ok false none help h
  obtain ⟨σ2, e2, h2⟩ := omFreeRest_ok (r := o.rest) (l := dataPtrs d ++ optPtrs { o with rest := none })
    (fun x hx => (hw.rest x hx).1) (h1.swap (by
      intro q
      simp only [optPtrs, restPtrs, List.count_append, List.count_nil]
      omega))
  refine ⟨σ2, { o with rest := some { d with type := .rest } }, ?_, h2.swap ?_, hw.list, ?_, hw.map⟩
  · rw [omAddRest, e1, Res.ok_bind]
    simp only
    rw [e2]
    rfl
  · intro q
    simp only [optPtrs, restPtrs, dataPtrs, List.count_append, List.count_nil]
    omega
  · intro x hx
    obtain rfl := Option.some.inj hx
    exact ⟨⟨fun _ => ⟨v2, v3⟩, fun hn => absurd rfl hn, fun _ => v5⟩, rfl⟩

theorem optPtrs_list (o : OMOpts) (list : List OMData) (q : Nat) :
    (optPtrs { o with list := list }).count q + (o.list.flatMap dataPtrs).count q =
      (optPtrs o).count q + (list.flatMap dataPtrs).count q := by
  simp only [optPtrs, List.count_append]
  omega

theorem omSetString_ok {σ : Mem} {o : OMOpts} {l : List Nat} (k : Nat) (hk : k < o.list.length) (hw : OptWf o)
    (h : Owns σ (optPtrs o ++ l)) :
    ∃ σ' o', omSetString σ o k = .ok (σ', o') ∧ Owns σ' (optPtrs o' ++ l) ∧ OptWf o' ∧
      o'.list.length = o.list.length := by
  unfold omSetString
  rw [readAt_ok hk, Res.ok_bind]
  have hget : o.list[k]? = some o.list[k] := List.getElem?_eq_getElem hk
  have hmem : o.list[k] ∈ o.list := List.getElem_mem hk
  generalize o.list[k] = d at hget hmem
  cases ht : d.type with
  | plain => exact ⟨σ, o, rfl, h, hw, rfl⟩
  | rest => exact ⟨σ, o, rfl, h, hw, rfl⟩
  | string =>
    have hc := fun q => count_flatMap_set dataPtrs o.list k d { d with s := none } hget q
    obtain ⟨σ1, p, e1, h1⟩ := redup_owns (d := d.s) (src := .ext)
      (l := optPtrs { o with list := o.list.set k { d with s := none } } ++ l) (h.swap (by
        intro q
        have a1 := hc q
        have a2 := optPtrs_list o (o.list.set k { d with s := none }) q
        simp only [List.count_append]
        simp only [dataPtrs, List.count_append, Option.toList_none, List.count_nil] at a1
        omega)) ext_mem
    refine ⟨σ1, { o with list := o.list.set k { d with s := p } }, ?_, h1.swap ?_, ⟨?_, hw.rest, hw.map⟩, by simp⟩
    · simp only
      rw [e1, Res.ok_bind, writeAt_ok _ hk, ht]
      rfl
    · intro q
      have a1 := hc q
      have a2 := optPtrs_list o (o.list.set k { d with s := none }) q
      have a3 := count_flatMap_set dataPtrs o.list k d { d with s := p } hget q
      have a4 := optPtrs_list o (o.list.set k { d with s := p }) q
      simp only [List.count_append]
      simp only [dataPtrs, List.count_append, Option.toList_none, List.count_nil] at a1 a3
      omega
    · intro x hx
      rcases List.mem_or_eq_of_mem_set hx with hx | rfl
      · exact hw.list x hx
      · have := hw.list d hmem
        exact ⟨fun hn => absurd ht hn, this.rest, this.arr⟩

theorem omSetStrings_ok {σ : Mem} {o : OMOpts} {l : List Nat} (ks : List Nat) (hk : ∀ k ∈ ks, k < o.list.length)
    (hw : OptWf o) (h : Owns σ (optPtrs o ++ l)) :
    ∃ σ' o', omSetStrings σ o ks = .ok (σ', o') ∧ Owns σ' (optPtrs o' ++ l) ∧ OptWf o' ∧
      o'.list.length = o.list.length := by
  induction ks generalizing σ o with
  | nil => exact ⟨σ, o, rfl, h, hw, rfl⟩
  | cons k ks ih =>
    obtain ⟨σ1, o1, e1, h1, w1, l1⟩ := omSetString_ok k (hk k (by simp)) hw h
    obtain ⟨σ2, o2, e2, h2, w2, l2⟩ := ih (o := o1) (by
      intro j hj
      rw [l1]
      exact hk j (by simp [hj])) w1 h1
    refine ⟨σ2, o2, ?_, h2, w2, l2.trans l1⟩
    rw [omSetStrings, e1, Res.ok_bind]
    exact e2

theorem omDupAll_ok {σ : Mem} {l : List Nat} (n : Nat) (h : Owns σ l) :
    ∃ σ' es, omDupAll σ n = .ok (σ', es) ∧ Owns σ' (es.flatMap Option.toList ++ l) := by
  induction n generalizing σ l with
  | zero => exact ⟨σ, [], rfl, by simpa using h⟩
  | succ n ih =>
    obtain ⟨σ1, p, e1, h1⟩ := redup_owns (d := none) (src := .ext) (by simpa using h) ext_mem
    obtain ⟨σ2, es, e2, h2⟩ := ih h1
    refine ⟨σ2, p :: es, ?_, h2.swap ?_⟩
    · rw [omDupAll, e1, Res.ok_bind]
      simp only
      rw [e2]
      rfl
    · intro q
      simp only [List.flatMap_cons, List.count_append]
      omega

theorem omSetRest_ok {σ : Mem} {d : OMData} {l : List Nat} (n : Nat) (hw : DataWf d) (ht : d.type = .rest)
    (h : Owns σ (dataPtrs d ++ l)) :
    ∃ σ' d', omSetRest σ d n = .ok (σ', d') ∧ Owns σ' (dataPtrs d' ++ l) ∧ DataWf d' ∧ d'.type = .rest := by
  obtain ⟨σ1, e1, h1⟩ := omFreeRestData_ok hw h
  have h2 := alloc_owns h1
  obtain ⟨σ2, es, e2, h3⟩ := omDupAll_ok n h2
  refine ⟨σ2, { noRest d with r := some (memAlloc σ1).2, elems := es }, ?_, h3.swap ?_, ⟨?_, ?_, ?_⟩, ht⟩
  · rw [omSetRest, e1, Res.ok_bind]
    simp only
    rw [e2]
    rfl
  · intro q
    simp only [dataPtrs, noRest, List.count_append, Option.toList_none, Option.toList_some, List.flatMap_nil,
      List.count_nil, List.count_cons]
    omega
  · exact hw.str
  · exact fun hn => absurd ht hn
  · intro hr
    cases hr

theorem omDefault_ok {σ : Mem} {d : OMData} {l : List Nat} (isSet : Bool) (hw : DataWf d)
    (h : Owns σ (dataPtrs d ++ l)) :
    ∃ σ' d', omDefault σ d isSet = .ok (σ', d') ∧ Owns σ' (dataPtrs d' ++ l) ∧ DataWf d' := by
  unfold omDefault
  cases isSet with
  | true => exact ⟨σ, d, rfl, h, hw⟩
  | false =>
    rw [if_neg (by decide)]
    cases ht : d.type with
    | plain => exact ⟨σ, d, rfl, h, hw⟩
    | rest => exact ⟨σ, d, rfl, h, hw⟩
    | string =>
      obtain ⟨σ1, p, e1, h1⟩ := redup_owns (d := d.s) (src := MSrc.of d.dflt)
        (l := dataPtrs { d with s := none } ++ l) (h.swap (by
          intro q
          simp only [dataPtrs, List.count_append, Option.toList_none, List.count_nil]
          omega)) (srcOf_mem (by
          intro q hq
          simp only [dataPtrs, List.mem_append]
          simp [hq]))
      refine ⟨σ1, { d with s := p }, ?_, h1.swap ?_, fun hn => absurd ht hn, hw.rest, hw.arr⟩
      · simp only
        rw [e1, ht]
        rfl
      · intro q
        simp only [dataPtrs, List.count_append, Option.toList_none, List.count_nil]
        omega

theorem omDefaults_ok {σ : Mem} {ds : List OMData} {l : List Nat} (isSet : Nat → Bool) (hw : ∀ d ∈ ds, DataWf d)
    (h : Owns σ (ds.flatMap dataPtrs ++ l)) :
    ∃ σ' ds', omDefaults isSet σ ds = .ok (σ', ds') ∧ Owns σ' (ds'.flatMap dataPtrs ++ l) ∧ ∀ d ∈ ds', DataWf d := by
  induction ds generalizing σ l with
  | nil => exact ⟨σ, [], rfl, h, by simp⟩
  | cons d ds ih =>
    have hs : d.self ∈ (d :: ds).flatMap dataPtrs ++ l := by simp [dataPtrs]
    obtain ⟨σ1, d1, e1, h1, w1⟩ := omDefault_ok (isSet d.self) (hw d (by simp)) (l := ds.flatMap dataPtrs ++ l)
      (by simpa using h)
    obtain ⟨σ2, ds2, e2, h2, w2⟩ := ih (l := dataPtrs d1 ++ l) (fun x hx => hw x (by simp [hx])) (h1.swap (by
      intro q
      simp only [List.count_append]
      omega))
    refine ⟨σ2, d1 :: ds2, ?_, h2.swap ?_, ?_⟩
    · rw [omDefaults, use_ok h hs, Res.ok_bind, e1, Res.ok_bind]
      simp only
      rw [e2]
      rfl
    · intro q
      simp only [List.flatMap_cons, List.count_append]
      omega
    · intro x hx
      rcases List.mem_cons.1 hx with rfl | hx
      · exact w1
      · exact w2 x hx

theorem omRestArgs_ok {σ : Mem} {r : Option OMData} {l : List Nat} (n : Nat)
    (hw : ∀ d, r = some d → DataWf d ∧ d.type = .rest) (h : Owns σ (restPtrs r ++ l)) :
    ∃ σ' r', omRestArgs σ n r = .ok (σ', r') ∧ Owns σ' (restPtrs r' ++ l) ∧
      ∀ d, r' = some d → DataWf d ∧ d.type = .rest := by
  cases r with
  | none => exact ⟨σ, none, rfl, h, hw⟩
  | some d =>
    obtain ⟨σ1, d1, e1, h1, w1, t1⟩ := omSetRest_ok n (hw d rfl).1 (hw d rfl).2 h
    refine ⟨σ1, some d1, ?_, h1, ?_⟩
    · rw [omRestArgs, e1]
      rfl
    · intro x hx
      obtain rfl := Option.some.inj hx
      exact ⟨w1, t1⟩

theorem omRestCheck_ok {σ : Mem} {r : Option OMData} {l : List Nat} (n : Nat)
    (hw : ∀ d, r = some d → DataWf d ∧ d.type = .rest) (h : Owns σ (restPtrs r ++ l)) :
    ∃ σ' r', omRestCheck σ n r = .ok (σ', r') ∧ Owns σ' (restPtrs r' ++ l) ∧
      ∀ d, r' = some d → DataWf d ∧ d.type = .rest := by
  cases r with
  | none => exact ⟨σ, none, rfl, h, hw⟩
  | some d =>
    rw [omRestCheck]
    split
    · obtain ⟨σ1, e1, h1⟩ := omFreeRestData_ok (hw d rfl).1 h
      refine ⟨σ1, some (noRest d), ?_, h1, ?_⟩
      · rw [e1]
        rfl
      · intro x hx
        obtain rfl := Option.some.inj hx
        exact ⟨⟨(hw d rfl).1.str, fun _ => rfl, fun _ => rfl⟩, (hw d rfl).2⟩
    · exact ⟨σ, some d, rfl, h, hw⟩

theorem omDefaults_length {isSet : Nat → Bool} {σ σ' : Mem} {ds ds' : List OMData}
    (h : omDefaults isSet σ ds = .ok (σ', ds')) : ds'.length = ds.length := by
  induction ds generalizing σ σ' ds' with
  | nil =>
    simp only [omDefaults, Res.ok.injEq, Prod.mk.injEq] at h
    rw [← h.2]
  | cons d ds ih =>
    rw [omDefaults] at h
    obtain ⟨-, -, h⟩ := Res.bind_eq_ok.1 h
    obtain ⟨r, -, h⟩ := Res.bind_eq_ok.1 h
    obtain ⟨q, hq, h⟩ := Res.bind_eq_ok.1 h
    simp only [Res.pure_eq, Res.ok.injEq, Prod.mk.injEq] at h
    rw [← h.2, List.length_cons, ih hq, List.length_cons]

theorem omSetFromArgs_ok {σ : Mem} {o : OMOpts} (ks : List Nat) (n : Nat) (isSet : Nat → Bool)
    (hk : ∀ k ∈ ks, k < o.list.length) (hw : OptWf o) (h : Owns σ (optPtrs o)) :
    ∃ σ' o', omSetFromArgs σ o ks n isSet = .ok (σ', o') ∧ Owns σ' (optPtrs o') ∧ OptWf o' ∧
      o'.list.length = o.list.length := by
  have h0 := alloc_owns h
  obtain ⟨σ1, g, e1, h1⟩ := redup_owns (d := o.progName) (src := .ext)
    (l := optPtrs { o with progName := none } ++ [(memAlloc σ).2]) (h0.swap (by
      intro q
      simp only [optPtrs, List.count_append, List.count_cons, Option.toList_none, List.count_nil]
      omega)) ext_mem
  obtain ⟨σ2, o2, e2, h2, w2, l2⟩ := omSetStrings_ok (o := { o with progName := g }) (l := [(memAlloc σ).2]) ks hk
    ⟨hw.list, hw.rest, hw.map⟩ (h1.swap (by
      intro q
      simp only [optPtrs, List.count_append, Option.toList_none, List.count_nil]
      omega))
  obtain ⟨σ3, r3, e3, h3, w3⟩ := omRestArgs_ok (r := o2.rest) (l := optPtrs { o2 with rest := none } ++ [(memAlloc σ).2])
    n w2.rest (h2.swap (by
      intro q
      simp only [optPtrs, restPtrs, List.count_append, List.count_nil]
      omega))
  obtain ⟨σ4, ds, e4, h4, w4⟩ := omDefaults_ok (ds := o2.list)
    (l := restPtrs r3 ++ (optPtrs { o2 with rest := none, list := [] } ++ [(memAlloc σ).2])) isSet w2.list (h3.swap (by
      intro q
      simp only [optPtrs, restPtrs, List.count_append, List.flatMap_nil, List.count_nil]
      omega))
  obtain ⟨σ5, r5, e5, h5, w5⟩ := omRestCheck_ok (r := r3)
    (l := ds.flatMap dataPtrs ++ (optPtrs { o2 with rest := none, list := [] } ++ [(memAlloc σ).2])) n w3 (h4.swap (by
      intro q
      simp only [List.count_append]
      omega))
  obtain ⟨σ6, e6, h6⟩ := free_owns (p := (memAlloc σ).2) (l := optPtrs { o2 with list := ds, rest := r5 }) (h5.swap (by
      intro q
      simp only [optPtrs, restPtrs, List.count_append, List.count_cons, List.flatMap_nil, List.count_nil]
      omega))
  refine ⟨σ6, { o2 with list := ds, rest := r5 }, ?_, h6, ⟨w4, w5, w2.map⟩, ?_⟩
  · simp only [omSetFromArgs]
    rw [e1, Res.ok_bind]
    simp only
    rw [e2, Res.ok_bind]
    simp only
    rw [e3, Res.ok_bind]
    simp only
    rw [e4, Res.ok_bind]
    simp only
    rw [e5, Res.ok_bind]
    simp only
    rw [e6]
    rfl
  · exact (omDefaults_length e4).trans l2

theorem omPrintLine_ok {σ : Mem} {d : OMData} {l : List Nat} (hd : d.self ∈ l) (h : Owns σ l) :
    ∃ σ', omPrintLine σ d = .ok σ' ∧ Owns σ' l := by
  have h2 := alloc_owns (alloc_owns h)
  obtain ⟨σ1, e1, h1⟩ := free_owns (p := (memAlloc σ).2) (l := (memAlloc (memAlloc σ).1).2 :: l) (h2.swap (by
    intro q
    simp only [List.count_cons]
    omega))
  obtain ⟨σ2, e2, h3⟩ := free_owns h1
  refine ⟨σ2, ?_, h3⟩
  simp only [omPrintLine]
  rw [use_ok h hd, Res.ok_bind, e1, Res.ok_bind, e2]

theorem omPrint_ok {σ : Mem} {ds : List OMData} {l : List Nat} (hd : ∀ d ∈ ds, d.self ∈ l) (h : Owns σ l) :
    ∃ σ', omPrint σ ds = .ok σ' ∧ Owns σ' l := by
  induction ds generalizing σ with
  | nil => exact ⟨σ, rfl, h⟩
  | cons d ds ih =>
    obtain ⟨σ1, e1, h1⟩ := omPrintLine_ok (hd d (by simp)) h
    obtain ⟨σ2, e2, h2⟩ := ih (fun x hx => hd x (by simp [hx])) h1
    exact ⟨σ2, by rw [omPrint, e1, Res.ok_bind, e2], h2⟩

/-- The arguments name options that there are. -/
def OMOp.fits (o : OMOpts) : OMOp → Bool
  | .setFromArgs ks _ _ => ks.all fun k => decide (k < o.list.length)
  | _ => true

/-- Every operation works on allocated memory only, frees nothing twice, and leaves exactly the blocks that belong to
the options: nothing is lost. -/
theorem c110_step {σ : Mem} {o : OMOpts} (op : OMOp) (hf : op.fits o = true) (hw : OptWf o) (h : Owns σ (optPtrs o)) :
    ∃ σ' o', omStep σ o op = .ok (σ', o') ∧ Owns σ' (optPtrs o') ∧ OptWf o' := by
  cases op with
  | addPlain long long1 help b b1 => exact omAddPlain_ok long long1 help b b1 hw h
  | addString long long1 help dflt b b1 => exact omAddString_ok long long1 help dflt b b1 hw h
  | addRest help => exact omAddRest_ok help hw h
  | setFromArgs ks n isSet =>
    obtain ⟨σ', o', e, h', w', -⟩ := omSetFromArgs_ok ks n isSet (by simpa [OMOp.fits] using hf) hw h
    exact ⟨σ', o', e, h', w'⟩
  | setHeader g =>
    obtain ⟨σ1, p, e1, h1⟩ := redup_owns (d := o.header) (src := argSrc g) (l := optPtrs { o with header := none })
      (h.swap (by
        intro q
        simp only [optPtrs, List.count_append, Option.toList_none, List.count_nil]
        omega)) (argSrc_mem _)
    refine ⟨σ1, { o with header := p }, ?_, h1.swap ?_, hw.list, hw.rest, hw.map⟩
    · simp only [omStep, omSetHeader]
      rw [e1]
      rfl
    · intro q
      simp only [optPtrs, List.count_append, Option.toList_none, List.count_nil]
      omega
  | setFooter g =>
    obtain ⟨σ1, p, e1, h1⟩ := redup_owns (d := o.footer) (src := argSrc g) (l := optPtrs { o with footer := none })
      (h.swap (by
        intro q
        simp only [optPtrs, List.count_append, Option.toList_none, List.count_nil]
        omega)) (argSrc_mem _)
    refine ⟨σ1, { o with footer := p }, ?_, h1.swap ?_, hw.list, hw.rest, hw.map⟩
    · simp only [omStep, omSetFooter]
      rw [e1]
      rfl
    · intro q
      simp only [optPtrs, List.count_append, Option.toList_none, List.count_nil]
      omega
  | print =>
    obtain ⟨σ1, e1, h1⟩ := omPrint_ok (ds := o.list) (by
      intro d hd
      simp only [optPtrs, List.mem_append, List.mem_flatMap]
      have : d.self ∈ dataPtrs d := by simp [dataPtrs]
      exact Or.inl (Or.inl (Or.inl (Or.inl (Or.inl (Or.inr ⟨d, hd, this⟩)))))) h
    refine ⟨σ1, o, ?_, h1, hw⟩
    simp only [omStep]
    rw [e1]
    rfl

theorem omFreeList_ok {σ : Mem} {ds : List OMData} {l : List Nat} (hw : ∀ d ∈ ds, DataWf d)
    (h : Owns σ (ds.flatMap dataPtrs ++ l)) : ∃ σ', omFreeList σ ds = .ok σ' ∧ Owns σ' l := by
  induction ds generalizing σ with
  | nil => exact ⟨σ, rfl, by simpa using h⟩
  | cons d ds ih =>
    have hs : d.self ∈ (d :: ds).flatMap dataPtrs ++ l := by simp [dataPtrs]
    obtain ⟨σ1, e1, h1⟩ := omDataFree_ok (hw d (by simp)) (l := ds.flatMap dataPtrs ++ l) (by simpa using h)
    obtain ⟨σ2, e2, h2⟩ := ih (fun x hx => hw x (by simp [hx])) h1
    exact ⟨σ2, by rw [omFreeList, use_ok h hs, Res.ok_bind, e1, Res.ok_bind, e2], h2⟩

theorem omFreeBucket_ok {σ : Mem} {b : List OMNode} {l : List Nat} (h : Owns σ (b.flatMap nodePtrs ++ l)) :
    ∃ σ', omFreeBucket σ b = .ok σ' ∧ Owns σ' l := by
  induction b generalizing σ with
  | nil => exact ⟨σ, rfl, by simpa using h⟩
  | cons n b ih =>
    have hs : n.self ∈ (n :: b).flatMap nodePtrs ++ l := by simp [nodePtrs]
    obtain ⟨σ1, e1, h1⟩ := freeOpt_owns (d := n.key) (l := n.self :: (b.flatMap nodePtrs ++ l)) (h.swap (by
      intro q
      simp only [List.flatMap_cons, nodePtrs, List.count_append, List.count_cons, List.count_nil]
      omega))
    obtain ⟨σ2, e2, h2⟩ := free_owns h1
    obtain ⟨σ3, e3, h3⟩ := ih h2
    exact ⟨σ3, by
      rw [omFreeBucket, omNodeFree, use_ok h hs, Res.ok_bind, e1, Res.ok_bind, e2, Res.ok_bind, e3], h3⟩

theorem omFreeBuckets_ok {σ : Mem} {bs : List (List OMNode)} {l : List Nat} (arr : Nat) (ha : arr ∈ l)
    (h : Owns σ (mapPtrs bs ++ l)) : ∃ σ', omFreeBuckets σ arr bs = .ok σ' ∧ Owns σ' l := by
  induction bs generalizing σ with
  | nil => exact ⟨σ, rfl, by simpa [mapPtrs] using h⟩
  | cons b bs ih =>
    obtain ⟨σ1, e1, h1⟩ := omFreeBucket_ok (b := b) (l := mapPtrs bs ++ l) (by simpa [mapPtrs] using h)
    obtain ⟨σ2, e2, h2⟩ := ih h1
    exact ⟨σ2, by rw [omFreeBuckets, use_ok h (by simp [ha]), Res.ok_bind, e1, Res.ok_bind, e2], h2⟩

/-- `nx_options_free` frees every block of the options once and nothing else. -/
theorem c110_free {σ : Mem} {o : OMOpts} {l : List Nat} (hw : OptWf o) (h : Owns σ (optPtrs o ++ l)) :
    ∃ σ', omFree σ o = .ok σ' ∧ Owns σ' l := by
  have hs : o.self ∈ optPtrs o ++ l := by simp [optPtrs]
  obtain ⟨σ1, e1, h1⟩ := freeOpt_owns (d := o.progName) (l := o.list.flatMap dataPtrs ++ (mapPtrs o.map ++
      (o.mapArr :: (restPtrs o.rest ++ (o.header.toList ++ (o.footer.toList ++ (o.self :: l))))))) (h.swap (by
    intro q
    simp only [optPtrs, mapPtrs, List.count_append, List.count_cons, List.count_nil]
    omega))
  obtain ⟨σ2, e2, h2⟩ := omFreeList_ok hw.list h1
  obtain ⟨σ3, e3, h3⟩ := omFreeBuckets_ok o.mapArr (by simp) h2
  obtain ⟨σ4, e4, h4⟩ := free_owns h3
  obtain ⟨σ5, e5, h5⟩ := omFreeRest_ok (fun d hd => (hw.rest d hd).1) h4
  obtain ⟨σ6, e6, h6⟩ := freeOpt_owns h5
  obtain ⟨σ7, e7, h7⟩ := freeOpt_owns h6
  obtain ⟨σ8, e8, h8⟩ := free_owns h7
  exact ⟨σ8, by rw [omFree, use_ok h hs, Res.ok_bind, e1, Res.ok_bind, e2, Res.ok_bind, e3, Res.ok_bind, e4,
    Res.ok_bind, e5, Res.ok_bind, e6, Res.ok_bind, e7, Res.ok_bind, e8], h8⟩

/-- The arguments of every operation name options that there are at that time. -/
def opsFit (σ : Mem) (o : OMOpts) : List OMOp → Bool
  | [] => true
  | op :: ops => op.fits o && match omStep σ o op with
    | .ok r => opsFit r.1 r.2 ops
    | _ => true

theorem omRun_ok {σ : Mem} {o : OMOpts} (ops : List OMOp) (hf : opsFit σ o ops = true) (hw : OptWf o)
    (h : Owns σ (optPtrs o)) :
    ∃ σ' o', omRun σ o ops = .ok (σ', o') ∧ Owns σ' (optPtrs o') ∧ OptWf o' := by
  induction ops generalizing σ o with
  | nil => exact ⟨σ, o, rfl, h, hw⟩
  | cons op ops ih =>
    rw [opsFit, Bool.and_eq_true] at hf
    obtain ⟨σ1, o1, e1, h1, w1⟩ := c110_step op hf.1 hw h
    rw [e1] at hf
    obtain ⟨σ2, o2, e2, h2, w2⟩ := ih hf.2 w1 h1
    exact ⟨σ2, o2, by rw [omRun, e1, Res.ok_bind]; exact e2, h2, w2⟩

/-- From the first allocation to the end: whatever a program does with its options, no block is used or freed that is
not allocated, and after `nx_options_free` nothing is left. -/
theorem c110_life (k : Nat) (ops : List OMOp) (hf : opsFit (omAlloc ⟨[], k⟩).1 (omAlloc ⟨[], k⟩).2 ops = true) :
    ∃ σ o σ', omRun (omAlloc ⟨[], k⟩).1 (omAlloc ⟨[], k⟩).2 ops = .ok (σ, o) ∧ omFree σ o = .ok σ' ∧
      σ'.live = [] := by
  have h0 : Owns ⟨[], k⟩ [] := ⟨by simp, by simp, by simp⟩
  have h2 := alloc_owns (alloc_owns h0)
  obtain ⟨σ, o, e, h, w⟩ := omRun_ok ops hf
    ⟨by simp [omAlloc], by simp [omAlloc], by simp [omAlloc]⟩ (h2.swap (by
      intro q
      simp only [omAlloc, optPtrs, restPtrs, List.count_append, List.count_cons, List.count_nil, Option.toList_none,
        List.flatMap_nil]
      have : (List.replicate 32 ([] : List OMNode)).flatMap (fun b => b.flatMap nodePtrs) = [] := by
        simp
      rw [this]
      simp only [List.count_nil]
      omega))
  obtain ⟨σ', e', h'⟩ := c110_free (l := []) w (by simpa using h)
  refine ⟨σ, o, σ', e, e', ?_⟩
  rw [List.eq_nil_iff_forall_not_mem]
  intro q hq
  have := h'.same q
  rw [List.count_nil, List.count_eq_zero] at this
  exact this hq

/-- A program with all operations. -/
def omDemo : List OMOp :=
  [.addPlain true (some false) true 3 4, .addString false (some false) true true 3 3, .addRest true, .addRest false,
    .setHeader true, .print, .setFromArgs [1, 0, 1] 2 (fun _ => false), .setFromArgs [] 0 (fun _ => false),
    .setFooter true, .setHeader false]

example : opsFit (omAlloc ⟨[], 5⟩).1 (omAlloc ⟨[], 5⟩).2 omDemo = true := by decide +kernel

/-- The numbers of blocks after a program and in all. -/
def omBlocks (ops : List OMOp) : Option (Nat × Nat) :=
  match omRun (omAlloc ⟨[], 5⟩).1 (omAlloc ⟨[], 5⟩).2 ops with
  | .ok r => some (r.1.live.length, r.1.next - 5)
  | _ => none

example : omBlocks omDemo = some (21, 47) := by decide +kernel

end Nx
