import Verif.Spec.Options
import Verif.Lemmas.DataFrame

/-!
# Lemmas about the command line options
-/

namespace Nx

/-! ## Hashes -/

theorem hashCode_true (h : Int) (s : Bytes) : ∃ v, hashCode true h s = .ok v := by
  induction s generalizing h with
  | nil => exact ⟨h, rfl⟩
  | cons b s ih =>
    rw [hashCode]
    simp only [hashStep, if_true, Res.ok_bind]
    exact ih _

theorem hashCode_false {s : Bytes} : ∀ {h : Int},
    (∀ k, k < s.length → InI32 ((s.take k).foldl (fun h b => h * 31 + schar b) h * 31) ∧
      InI32 ((s.take (k + 1)).foldl (fun h b => h * 31 + schar b) h)) →
    ∃ v, hashCode false h s = .ok v := by
  induction s with
  | nil => intro h _; exact ⟨h, rfl⟩
  | cons b s ih =>
    intro h hk
    have h0 := hk 0 (by simp)
    simp only [List.take_zero, List.foldl_nil, Nat.zero_add, List.take_succ_cons, List.foldl_cons] at h0
    rw [hashCode]
    simp only [hashStep, Bool.false_eq_true, if_false, if_pos h0, Res.ok_bind]
    apply ih
    intro k hlt
    have := hk (k + 1) (by simpa using hlt)
    simpa using this

theorem bucketOf_hashable {wrap : Bool} {s : Bytes} (h : Hashable wrap s) :
    ∃ b, b < 32 ∧ bucketOf wrap s = .ok b := by
  have : ∃ v, hashCode wrap 0 s = .ok v := by
    cases wrap
    · rcases h with h | h
      · cases h
      · exact hashCode_false h
    · exact hashCode_true 0 s
  obtain ⟨v, hv⟩ := this
  refine ⟨(Int.tmod v 32).natAbs, ?_, ?_⟩
  · rw [Int.natAbs_tmod]
    exact Nat.mod_lt _ (by decide)
  · simp [bucketOf, hv]

/-! ## The name map -/

/-- The name map holds exactly the pairs of a relation, each in the bucket of its key. -/
structure MapInv (wrap : Bool) (map : List (List (Bytes × Nat))) (R : Bytes → Nat → Prop) : Prop where
  len : map.length = 32
  sound : ∀ (b : Nat) (l : List (Bytes × Nat)) (x : Bytes) (k : Nat), map[b]? = some l → (x, k) ∈ l →
    bucketOf wrap x = .ok b ∧ R x k
  compl : ∀ (x : Bytes) (k : Nat), R x k → ∃ (b : Nat) (l : List (Bytes × Nat)), bucketOf wrap x = .ok b ∧
    map[b]? = some l ∧ (x, k) ∈ l

theorem MapInv.congr {wrap : Bool} {map : List (List (Bytes × Nat))} {R S : Bytes → Nat → Prop}
    (h : MapInv wrap map R) (e : ∀ x k, R x k ↔ S x k) : MapInv wrap map S :=
  ⟨h.len, fun b l x k hb hm => ⟨(h.sound b l x k hb hm).1, (e x k).1 (h.sound b l x k hb hm).2⟩,
    fun x k hs => h.compl x k ((e x k).2 hs)⟩

theorem mapInv_empty (wrap : Bool) : MapInv wrap (List.replicate 32 []) (fun _ _ => False) := by
  refine ⟨by simp, ?_, ?_⟩
  · intro b l x k hb hm
    rw [List.getElem?_replicate] at hb
    split at hb
    · cases hb; cases hm
    · cases hb
  · intro x k h; exact h.elim

theorem optFind_spec {wrap : Bool} {map : List (List (Bytes × Nat))} {R : Bytes → Nat → Prop}
    (hm : MapInv wrap map R) {x : Bytes} (hx : Hashable wrap x) :
    (∃ k, R x k ∧ optFind wrap map (some x) = .ok (some k)) ∨
      ((∀ k, ¬ R x k) ∧ optFind wrap map (some x) = .ok none) := by
  obtain ⟨b, hb, he⟩ := bucketOf_hashable hx
  have hl : b < map.length := by rw [hm.len]; exact hb
  have hg : map[b]? = some map[b] := List.getElem?_eq_getElem hl
  simp only [optFind, he, Res.ok_bind, readAt_ok hl, Res.pure_eq]
  cases hf : map[b].find? (fun n => n.1 == x) with
  | none =>
    right
    refine ⟨?_, by simp⟩
    intro k hk
    obtain ⟨b', l, h1, h2, h3⟩ := hm.compl x k hk
    rw [he] at h1; cases h1
    rw [hg] at h2; cases h2
    have := List.find?_eq_none.1 hf _ h3
    simp at this
  | some n =>
    left
    have h1 := List.mem_of_find?_eq_some hf
    have h2 := List.find?_some hf
    obtain ⟨y, k⟩ := n
    simp only [beq_iff_eq] at h2
    subst h2
    exact ⟨k, (hm.sound b _ y k hg h1).2, by simp⟩

theorem optAddToMap_spec {wrap : Bool} {map : List (List (Bytes × Nat))} {R : Bytes → Nat → Prop}
    (hm : MapInv wrap map R) {x : Bytes} (hx : Hashable wrap x) (k : Nat) :
    ∃ map', optAddToMap wrap map x k = .ok map' ∧ MapInv wrap map' (fun y j => R y j ∨ (y = x ∧ j = k)) := by
  obtain ⟨b, hb, he⟩ := bucketOf_hashable hx
  have hl : b < map.length := by rw [hm.len]; exact hb
  have hg : map[b]? = some map[b] := List.getElem?_eq_getElem hl
  refine ⟨map.set b ((x, k) :: map[b]), ?_, ?_, ?_, ?_⟩
  · simp only [optAddToMap, he, Res.ok_bind, readAt_ok hl, writeAt_ok _ hl]
  · simp [hm.len]
  · intro c l y j hc hin
    rw [List.getElem?_set] at hc
    by_cases hbc : b = c
    · subst hbc
      simp only [if_true, hl] at hc
      cases hc
      rcases List.mem_cons.1 hin with h | h
      · cases h
        exact ⟨he, Or.inr ⟨rfl, rfl⟩⟩
      · have := hm.sound b _ y j hg h
        exact ⟨this.1, Or.inl this.2⟩
    · rw [if_neg hbc] at hc
      have := hm.sound c l y j hc hin
      exact ⟨this.1, Or.inl this.2⟩
  · intro y j hy
    rcases hy with hy | ⟨rfl, rfl⟩
    · obtain ⟨c, l, h1, h2, h3⟩ := hm.compl y j hy
      by_cases hbc : b = c
      · subst hbc
        rw [hg] at h2; cases h2
        exact ⟨b, (x, k) :: map[b], h1, by simp [hl], List.mem_cons_of_mem _ h3⟩
      · exact ⟨c, l, h1, by rw [List.getElem?_set, if_neg hbc]; exact h2, h3⟩
    · exact ⟨b, (y, j) :: map[b], he, by simp [hl], List.mem_cons_self⟩

theorem optAddName_spec {wrap : Bool} {map : List (List (Bytes × Nat))} {R : Bytes → Nat → Prop}
    (hm : MapInv wrap map R) {x : Option Bytes} (hx : ∀ y, x = some y → Hashable wrap y) (k : Nat) :
    ∃ map', optAddName wrap map x k = .ok map' ∧ MapInv wrap map' (fun y j => R y j ∨ (x = some y ∧ j = k)) := by
  cases x with
  | none =>
    refine ⟨map, rfl, hm.congr ?_⟩
    intro y j; simp
  | some x =>
    obtain ⟨m, h1, h2⟩ := optAddToMap_spec hm (hx x rfl) k
    refine ⟨m, h1, h2.congr ?_⟩
    intro y j
    constructor
    · rintro (h | ⟨rfl, rfl⟩)
      · exact Or.inl h
      · exact Or.inr ⟨rfl, rfl⟩
    · rintro (h | ⟨h, rfl⟩)
      · exact Or.inl h
      · cases h; exact Or.inr ⟨rfl, rfl⟩

/-! ## Names -/

theorem splitNames_one {s : Bytes} (h : (124 : Byte) ∉ s) : splitNames s = (s, none) := by
  rw [splitNames, if_neg h]

theorem takeWhile_bar {a b : Bytes} (h : (124 : Byte) ∉ a) : (a ++ 124 :: b).takeWhile (· != 124) = a := by
  induction a with
  | nil => simp
  | cons x a ih =>
    have hx : x ≠ 124 := fun e => h (by rw [e]; exact List.mem_cons_self)
    have ha : (124 : Byte) ∉ a := fun e => h (List.mem_cons_of_mem _ e)
    rw [List.cons_append, List.takeWhile_cons]
    simp [hx, ih ha]

theorem splitNames_two {a b : Bytes} (h : (124 : Byte) ∉ a) : splitNames (a ++ 124 :: b) = (a, some b) := by
  rw [splitNames, if_pos (by simp), takeWhile_bar h]
  simp

theorem setName_short {p : Option Bytes × Option Bytes} {n : Bytes} (h : ShortName n) :
    setName p n = .ok (some n, p.2) := by
  obtain ⟨h1, h2⟩ := h
  rw [setName, if_neg (by omega), if_neg (by simp [h2]), if_neg (by omega)]

theorem setName_long {p : Option Bytes × Option Bytes} {n : Bytes} (h : LongName n) :
    setName p n = .ok (p.1, some n) := by
  obtain ⟨h1, h2, h3⟩ := h
  rw [setName, if_neg (by omega), if_neg (by simp [h2]), if_pos (by omega), if_neg (by simp [h3])]

theorem setName_illegal {p : Option Bytes × Option Bytes} {n : Bytes} (h1 : ¬ ShortName n) (h2 : ¬ LongName n) :
    setName p n = .fatal := by
  rw [setName]
  by_cases a : n.length < 2
  · rw [if_pos a]
  rw [if_neg a]
  by_cases b : n[0]? = some 45
  · rw [if_neg (by simp [b])]
    by_cases c : n.length > 2
    · rw [if_pos c]
      by_cases d : n[1]? = some 45
      · exact absurd ⟨c, b, d⟩ h2
      · rw [if_pos d]
    · exact absurd ⟨by omega, b⟩ h1
  · rw [if_pos b]

theorem setNames_spec {s : Bytes} {ns : List Bytes} (h : NamesOf s ns) :
    ∃ p, setNames (some s) = .ok p ∧ ∀ x, x ∈ ns ↔ (p.2 = some x ∨ p.1 = some x) := by
  cases h with
  | one s hs hl =>
    rcases hl with hl | hl
    · exact ⟨(some s, none), by simp [setNames, splitNames_one hs, setName_short hl], by simp [eq_comm]⟩
    · exact ⟨(none, some s), by simp [setNames, splitNames_one hs, setName_long hl], by simp [eq_comm]⟩
  | shortLong a b ha hs hl =>
    refine ⟨(some a, some b), by simp [setNames, splitNames_two ha, setName_short hs, setName_long hl], ?_⟩
    intro x; simp [eq_comm, or_comm]
  | longShort a b ha hl hs =>
    refine ⟨(some b, some a), by simp [setNames, splitNames_two ha, setName_short hs, setName_long hl], ?_⟩
    intro x; simp [eq_comm]

/-! ## Declarations -/

/-- The table of options represents the declared names. -/
structure OptInv (wrap : Bool) (o : Options) (nss : List (List Bytes)) : Prop where
  len : o.opts.length = nss.length
  map : MapInv wrap o.map (Named nss)

theorem named_append {nss mss : List (List Bytes)} {x : Bytes} {k : Nat} :
    Named (nss ++ mss) x k ↔ Named nss x k ∨ (nss.length ≤ k ∧ Named mss x (k - nss.length)) := by
  unfold Named
  by_cases h : k < nss.length
  · rw [List.getElem?_append_left h]
    constructor
    · intro a; exact Or.inl a
    · rintro (a | ⟨a, _⟩)
      · exact a
      · omega
  · rw [List.getElem?_append_right (by omega)]
    constructor
    · intro a; exact Or.inr ⟨by omega, a⟩
    · rintro (⟨ns, a, _⟩ | ⟨_, a⟩)
      · rw [List.getElem?_eq_none (by omega)] at a; cases a
      · exact a

theorem named_singleton {ns : List Bytes} {x : Bytes} {k : Nat} : Named [ns] x k ↔ k = 0 ∧ x ∈ ns := by
  unfold Named
  cases k <;> simp

theorem Named.lt {nss : List (List Bytes)} {x : Bytes} {k : Nat} (h : Named nss x k) : k < nss.length := by
  obtain ⟨ns, h, _⟩ := h
  exact lt_of_get h

/-- The record made by a declaration. -/
def newRec (t : OType) (s : Bytes) (v : OVal) (q : Bool) : OptData :=
  match setNames (some s) with
  | .ok p => OptData.mk p.1 p.2 t v q false v
  | _ => OptData.mk none none t v q false v

theorem optAdd_spec {wrap : Bool} {o : Options} {nss : List (List Bytes)} (hi : OptInv wrap o nss)
    (t : OType) {s : Bytes} (v : OVal) (q : Bool) {ns : List Bytes} (hn : NamesOf s ns)
    (hh : ∀ x ∈ ns, Hashable wrap x) :
    ((∃ x ∈ ns, ∃ k, Named nss x k) ∧ optAdd wrap o t (some s) v q = .fatal) ∨
    ((∀ x ∈ ns, ∀ k, ¬ Named nss x k) ∧ ∃ o', optAdd wrap o t (some s) v q = .ok o' ∧
      o'.opts = o.opts ++ [newRec t s v q] ∧ o'.rest = o.rest ∧ OptInv wrap o' (nss ++ [ns])) := by
  obtain ⟨p, hp, hx⟩ := setNames_spec hn
  have find : ∀ y : Option Bytes, (∀ x, y = some x → x ∈ ns) →
      ((∃ x ∈ ns, ∃ k, Named nss x k) ∧ ∃ k, optFind wrap o.map y = .ok (some k)) ∨
      ((∀ x, y = some x → ∀ k, ¬ Named nss x k) ∧ optFind wrap o.map y = .ok none) := by
    intro y hy
    cases y with
    | none => right; exact ⟨by simp, rfl⟩
    | some y =>
      rcases optFind_spec hi.map (hh y (hy y rfl)) with ⟨k, h1, h2⟩ | ⟨h1, h2⟩
      · exact Or.inl ⟨⟨y, hy y rfl, k, h1⟩, k, h2⟩
      · right
        refine ⟨?_, h2⟩
        intro x hxe; cases hxe; exact h1
  rcases find p.2 (fun x e => (hx x).2 (Or.inl e)) with ⟨h1, k, h2⟩ | ⟨h1, h2⟩
  · left
    refine ⟨h1, ?_⟩
    simp [optAdd, hp, h2]
  rcases find p.1 (fun x e => (hx x).2 (Or.inr e)) with ⟨h3, k, h4⟩ | ⟨h3, h4⟩
  · left
    refine ⟨h3, ?_⟩
    simp [optAdd, hp, h2, h4]
  right
  refine ⟨?_, ?_⟩
  · intro x hxn
    rcases (hx x).1 hxn with h | h
    · exact h1 x h
    · exact h3 x h
  obtain ⟨m1, e1, i1⟩ := optAddName_spec hi.map (x := p.2) (fun y e => hh y ((hx y).2 (Or.inl e))) o.opts.length
  obtain ⟨m2, e2, i2⟩ := optAddName_spec i1 (x := p.1) (fun y e => hh y ((hx y).2 (Or.inr e))) o.opts.length
  refine ⟨{ o with
    opts := o.opts ++ [OptData.mk p.1 p.2 t v q false v]
    map := m2
    nOptions := o.nOptions + 1 }, ?_, ?_, rfl, ?_, ?_⟩
  · simp only [optAdd, hp, h2, h4, e1, e2, Res.ok_bind, Res.pure_eq, ne_eq, not_true_eq_false, if_false]
  · simp [newRec, hp]
  · simp [hi.len]
  · refine i2.congr ?_
    intro x k
    rw [named_append, named_singleton, ← hi.len]
    constructor
    · rintro ((h | ⟨h, rfl⟩) | ⟨h, rfl⟩)
      · exact Or.inl h
      · exact Or.inr ⟨Nat.le_refl _, by omega, (hx x).2 (Or.inl h)⟩
      · exact Or.inr ⟨Nat.le_refl _, by omega, (hx x).2 (Or.inr h)⟩
    · rintro (h | ⟨h, h', hm⟩)
      · exact Or.inl (Or.inl h)
      · have : k = o.opts.length := by omega
        rcases (hx x).1 hm with e | e
        · exact Or.inl (Or.inr ⟨e, this⟩)
        · exact Or.inr ⟨e, this⟩

/-- The records made by declarations. -/
def newRecs : List ODecl → List OptData
  | [] => []
  | .opt t s v q :: ds => newRec t s v q :: newRecs ds
  | .rest _ :: ds => newRecs ds

/-- The record of remaining arguments after declarations. -/
def newRest (r : Option OptRest) : List ODecl → Option OptRest
  | [] => r
  | .opt _ _ _ _ :: ds => newRest r ds
  | .rest q :: ds => newRest (some (OptRest.mk q false none 0)) ds

theorem DistinctNames.left {nss mss : List (List Bytes)} (h : DistinctNames (nss ++ mss)) : DistinctNames nss :=
  fun x j k hj hk => h x j k (named_append.2 (Or.inl hj)) (named_append.2 (Or.inl hk))

theorem optDeclareAll_spec {wrap : Bool} {ds : List ODecl} {mss : List (List Bytes)} (hd : Decls ds mss) :
    ∀ {o : Options} {nss : List (List Bytes)}, OptInv wrap o nss → DistinctNames nss →
      (∀ ns ∈ mss, ∀ x ∈ ns, Hashable wrap x) →
      (¬ DistinctNames (nss ++ mss) ∧ optDeclareAll wrap o ds = .fatal) ∨
      (DistinctNames (nss ++ mss) ∧ ∃ o', optDeclareAll wrap o ds = .ok o' ∧ o'.opts = o.opts ++ newRecs ds ∧
        o'.rest = newRest o.rest ds ∧ OptInv wrap o' (nss ++ mss)) := by
  induction hd with
  | nil =>
    intro o nss hi hu _
    right
    simp only [List.append_nil]
    exact ⟨hu, o, rfl, by simp [newRecs], rfl, hi⟩
  | opt t s v q ns ds mss hn hd ih =>
    intro o nss hi hu hh
    rw [optDeclareAll]
    simp only [optDeclare]
    rcases optAdd_spec hi t v q hn (hh ns List.mem_cons_self) with ⟨⟨x, hx, k, hk⟩, he⟩ | ⟨hf, o1, he, h1, h2, h3⟩
    · left
      rw [he]
      refine ⟨?_, rfl⟩
      intro hdis
      have := hdis x k nss.length (named_append.2 (Or.inl hk))
        (named_append.2 (Or.inr ⟨Nat.le_refl _, ns, by simp, hx⟩))
      have := hk.lt
      omega
    · rw [he, Res.ok_bind]
      have hu1 : DistinctNames (nss ++ [ns]) := by
        intro x j k hj hk
        rw [named_append, named_singleton] at hj hk
        rcases hj with hj | ⟨a, b, c⟩ <;> rcases hk with hk | ⟨a', b', c'⟩
        · exact hu x j k hj hk
        · exact absurd hj (hf x c' j)
        · exact absurd hk (hf x c k)
        · omega
      have := ih h3 hu1 (fun ms hm => hh ms (List.mem_cons_of_mem _ hm))
      rw [List.append_assoc, List.singleton_append] at this
      rcases this with ⟨a, b⟩ | ⟨a, o', b, c, d, e⟩
      · exact Or.inl ⟨a, b⟩
      · refine Or.inr ⟨a, o', b, ?_, ?_, e⟩
        · rw [c, h1, newRecs]; simp
        · rw [d, h2, newRest]
  | rest q ds mss hd ih =>
    intro o nss hi hu hh
    rw [optDeclareAll]
    simp only [optDeclare, Res.ok_bind]
    have hi' : OptInv wrap (optAddRest o q) nss := ⟨hi.len, hi.map⟩
    rcases ih hi' hu hh with ⟨a, b⟩ | ⟨a, o', b, c, d, e⟩
    · exact Or.inl ⟨a, b⟩
    · exact Or.inr ⟨a, o', b, c, d, e⟩

theorem optInv_alloc (wrap : Bool) : OptInv wrap optAlloc [] :=
  ⟨rfl, (mapInv_empty wrap).congr (by intro x k; simp [Named])⟩

theorem distinct_nil : DistinctNames [] := by
  intro x j k hj; obtain ⟨ns, h, _⟩ := hj; simp at h

theorem declare_spec {wrap : Bool} {ds : List ODecl} {nss : List (List Bytes)} (hd : Decls ds nss)
    (hh : ∀ ns ∈ nss, ∀ x ∈ ns, Hashable wrap x) :
      (¬ DistinctNames nss ∧ optDeclareAll wrap optAlloc ds = .fatal) ∨
      (DistinctNames nss ∧ ∃ o', optDeclareAll wrap optAlloc ds = .ok o' ∧ o'.opts = newRecs ds ∧
        o'.rest = newRest none ds ∧ OptInv wrap o' nss) := by
  have := optDeclareAll_spec hd (optInv_alloc wrap) distinct_nil hh
  simpa [optAlloc] using this

theorem newRecs_info (ds : List ODecl) :
    (newRecs ds).map (fun d => (d.type, d.dflt, d.isRequired)) = declInfo ds ∧
    ∀ d ∈ newRecs ds, d.value = d.dflt ∧ d.isSet = false := by
  induction ds with
  | nil => exact ⟨rfl, by simp [newRecs]⟩
  | cons d ds ih =>
    cases d with
    | opt t s v q =>
      have h : (newRec t s v q).type = t ∧ (newRec t s v q).dflt = v ∧ (newRec t s v q).isRequired = q ∧
          (newRec t s v q).value = v ∧ (newRec t s v q).isSet = false := by
        unfold newRec; split <;> simp
      obtain ⟨h1, h2, h3, h4, h5⟩ := h
      refine ⟨by simp only [newRecs, declInfo, List.map_cons, h1, h2, h3, ih.1], ?_⟩
      intro d hd
      rw [newRecs] at hd
      rcases List.mem_cons.1 hd with rfl | hd
      · exact ⟨by rw [h4, h2], h5⟩
      · exact ih.2 d hd
    | rest q => exact ih

theorem newRest_spec (ds : List ODecl) (r : Option OptRest) : newRest r ds =
    match declRest ds with
    | none => r
    | some q => some (OptRest.mk q false none 0) := by
  induction ds generalizing r with
  | nil => rfl
  | cons d ds ih =>
    cases d with
    | opt t s v q => simpa [newRest, declRest] using ih r
    | rest q =>
      rw [newRest, ih, declRest]
      cases declRest ds <;> rfl

end Nx
