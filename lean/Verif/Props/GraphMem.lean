import Verif.Model.GraphMem
import Verif.Lemmas.Ledger
import Verif.Lemmas.Sample

/-!
# C124: memory of graphs
-/

namespace Nx

/-- The blocks of lists of nodes. -/
def edgeNodePtrs (ls : List (List (Nat × Nat))) : List Nat := ls.flatMap fun es => es.map Prod.fst

/-- The blocks of a graph. -/
def graphPtrs (g : MGraph) : List Nat := [g.self, g.name, g.arr] ++ edgeNodePtrs g.lists

/-- The vertices that an edge of the list `es` joins with `v`. -/
def EdgeJoins (es : List (Nat × Nat)) (v w : Nat) : Prop := v ≠ w ∧ ((v, w) ∈ es ∨ (w, v) ∈ es)

/-- There is exactly one node in the list of `v` for each vertex that an edge joins with it, and no other. -/
structure NodesOf (g : MGraph) (n : Nat) (es : List (Nat × Nat)) : Prop where
  len : g.lists.length = n
  once : ∀ l ∈ g.lists, (l.map Prod.snd).Nodup
  iff : ∀ v l, g.lists[v]? = some l → ∀ w, w ∈ l.map Prod.snd ↔ EdgeJoins es v w

theorem gmSearch_ok {σ : Mem} {l : List Nat} (h : Owns σ l) (v : Nat) : ∀ {es : List (Nat × Nat)}, (∀ p ∈ es.map Prod.fst, p ∈ l) →
    gmSearch σ v es = .ok (decide (v ∈ es.map Prod.snd)) := by
  intro es
  induction es with
  | nil => intro _; rfl
  | cons e es ih =>
    intro hp
    rw [gmSearch, use_ok h (hp e.1 (by simp)), Res.ok_bind]
    by_cases he : e.2 = v
    · simp [he]
    · rw [if_neg he, ih (fun p hm => hp p (by simp at hm ⊢; exact Or.inr hm))]
      have he' : ¬ v = e.2 := fun e => he e.symm
      simp [he']

theorem nodes_split {ls : List (List (Nat × Nat))} {k : Nat} (hk : k < ls.length) (e : Nat × Nat) (q : Nat) :
    (edgeNodePtrs (ls.set k (e :: ls[k]))).count q = (edgeNodePtrs ls).count q + [e.1].count q := by
  have e1 : ls = ls.take k ++ ls[k] :: ls.drop (k + 1) := by rw [← List.drop_eq_getElem_cons hk, List.take_append_drop]
  have e2 := congrArg (fun x => (edgeNodePtrs x).count q) e1
  rw [List.set_eq_take_append_cons_drop, if_pos hk]
  simp only [edgeNodePtrs, List.flatMap_append, List.flatMap_cons, List.count_append, List.map_cons, List.count_cons,
    List.count_nil] at e2 ⊢
  omega

/-- After half of an insertion: the list of `v` has a node for `w`, the others are as they were. -/
theorem gmHalf_owns {σ : Mem} {l : List Nat} {g : MGraph} (h : Owns σ (graphPtrs g ++ l)) {v w : Nat} (hv : v < g.lists.length)
    (hd : ∀ x ∈ g.lists, (x.map Prod.snd).Nodup) :
    ∃ σ' g', gmHalf σ g v w = .ok (σ', g') ∧ Owns σ' (graphPtrs g' ++ l) ∧ g'.lists.length = g.lists.length ∧
      (∀ x ∈ g'.lists, (x.map Prod.snd).Nodup) ∧
      ∀ u (hu : u < g.lists.length) x, g'.lists[u]? = some x →
        ∀ y, y ∈ x.map Prod.snd ↔ y ∈ g.lists[u].map Prod.snd ∨ (u = v ∧ y = w) := by
  have hm : g.lists[v] ∈ g.lists := List.getElem_mem hv
  have u1 : memUse σ g.arr = .ok () := use_ok h (by simp [graphPtrs])
  have s1 := gmSearch_ok h w (es := g.lists[v]) (by
    intro p hp
    simp only [graphPtrs, edgeNodePtrs, List.mem_append, List.mem_flatMap]
    exact Or.inl (Or.inr ⟨_, hm, hp⟩))
  by_cases hw : w ∈ g.lists[v].map Prod.snd
  · refine ⟨σ, g, ?_, h, rfl, hd, ?_⟩
    · rw [gmHalf, u1, Res.ok_bind, readAt_ok hv, Res.ok_bind, s1, Res.ok_bind, decide_eq_true hw]
      rfl
    · intro u hu x hx y
      rw [List.getElem?_eq_getElem hu] at hx
      cases hx
      refine ⟨Or.inl, fun c => c.elim id fun c => ?_⟩
      obtain ⟨rfl, rfl⟩ := c
      exact hw
  · refine ⟨(memAlloc σ).1, { g with lists := g.lists.set v (((memAlloc σ).2, w) :: g.lists[v]) }, ?_, ?_, by simp, ?_, ?_⟩
    · rw [gmHalf, u1, Res.ok_bind, readAt_ok hv, Res.ok_bind, s1, Res.ok_bind, decide_eq_false hw]
      rfl
    · refine (alloc_owns h).swap ?_
      intro q
      have := nodes_split hv ((memAlloc σ).2, w) q
      simp only [graphPtrs, List.count_append, List.count_cons, List.count_nil] at this ⊢
      omega
    · intro x hx
      rcases List.mem_or_eq_of_mem_set hx with hx | hx
      · exact hd x hx
      · rw [hx, List.map_cons, List.nodup_cons]
        exact ⟨hw, hd _ hm⟩
    · intro u hu x hx y
      simp only at hx
      rw [List.getElem?_set] at hx
      by_cases e : v = u
      · subst e
        simp only [if_true, hv, Option.some.injEq] at hx
        subst hx
        rw [List.map_cons, List.mem_cons]
        constructor
        · rintro (c | c)
          · exact Or.inr ⟨rfl, c⟩
          · exact Or.inl c
        · rintro (c | c)
          · exact Or.inr c
          · exact Or.inl c.2
      · rw [if_neg e, List.getElem?_eq_getElem hu] at hx
        cases hx
        refine ⟨Or.inl, fun c => c.elim id fun c => absurd c.1.symm e⟩

theorem gmInsert_owns {σ : Mem} {l : List Nat} {g : MGraph} {n : Nat} {es : List (Nat × Nat)} (h : Owns σ (graphPtrs g ++ l))
    (hg : NodesOf g n es) {v w : Nat} (hv : v < n) (hw : w < n) :
    ∃ σ' g', gmInsert σ g v w = .ok (σ', g') ∧ Owns σ' (graphPtrs g' ++ l) ∧ NodesOf g' n (es ++ [(v, w)]) := by
  obtain ⟨g1, g2, g3⟩ := hg
  have u1 : memUse σ g.self = .ok () := use_ok h (by simp [graphPtrs])
  have u2 : memUse σ g.name = .ok () := use_ok h (by simp [graphPtrs])
  by_cases e : v = w
  · subst e
    refine ⟨σ, g, by simp [gmInsert, u1, u2, g1, hv], h, g1, g2, ?_⟩
    intro u x hx y
    rw [g3 u x hx y, EdgeJoins, EdgeJoins]
    refine and_congr_right fun hne => ?_
    simp only [List.mem_append, List.mem_singleton, Prod.mk.injEq]
    constructor
    · rintro (c | c)
      · exact Or.inl (Or.inl c)
      · exact Or.inr (Or.inl c)
    · rintro ((c | c) | (c | c))
      · exact Or.inl c
      · exact absurd (c.1.trans c.2.symm) hne
      · exact Or.inr c
      · exact absurd (c.2.trans c.1.symm) hne
  · obtain ⟨σ1, ga, h1, o1, a1, a2, a3⟩ := gmHalf_owns h (v := v) (w := w) (by omega) g2
    obtain ⟨σ2, gb, h2, o2, b1, b2, b3⟩ := gmHalf_owns o1 (v := w) (w := v) (by omega) a2
    refine ⟨σ2, gb, by simp [gmInsert, u1, g1, hv, hw, e, h1, h2], o2, by omega, b2, ?_⟩
    intro u x hx y
    have hu : u < n := by
      have := (List.getElem?_eq_some_iff.mp hx).1
      omega
    rw [b3 u (by omega) x hx y, a3 u (by omega) _ (List.getElem?_eq_getElem (by omega)) y,
      g3 u _ (List.getElem?_eq_getElem (by omega)) y, EdgeJoins, EdgeJoins]
    simp only [List.mem_append, List.mem_singleton, Prod.mk.injEq]
    constructor
    · rintro ((⟨c1, c⟩ | ⟨rfl, rfl⟩) | ⟨rfl, rfl⟩)
      · exact ⟨c1, c.elim (fun c => Or.inl (Or.inl c)) fun c => Or.inr (Or.inl c)⟩
      · exact ⟨e, Or.inl (Or.inr ⟨rfl, rfl⟩)⟩
      · exact ⟨fun c => e c.symm, Or.inr (Or.inr ⟨rfl, rfl⟩)⟩
    · rintro ⟨hne, (c | c) | (c | c)⟩
      · exact Or.inl (Or.inl ⟨hne, Or.inl c⟩)
      · exact Or.inl (Or.inr c)
      · exact Or.inl (Or.inl ⟨hne, Or.inr c⟩)
      · exact Or.inr ⟨c.2, c.1⟩

theorem gmRun_owns {l : List Nat} {n : Nat} : ∀ (es : List (Nat × Nat)) {es0 : List (Nat × Nat)} {σ : Mem} {g : MGraph},
    Owns σ (graphPtrs g ++ l) → NodesOf g n es0 → (∀ e ∈ es, e.1 < n ∧ e.2 < n) →
    ∃ s, es.foldlM (fun s e => gmInsert s.1 s.2 e.1 e.2) (σ, g) = .ok s ∧ Owns s.1 (graphPtrs s.2 ++ l) ∧
      NodesOf s.2 n (es0 ++ es) := by
  intro es
  induction es with
  | nil => intro es0 σ g h hg _; exact ⟨_, rfl, h, by rw [List.append_nil]; exact hg⟩
  | cons e es ih =>
    intro es0 σ g h hg ha
    obtain ⟨σ1, g1, h1, o1, w1⟩ := gmInsert_owns h hg (ha e List.mem_cons_self).1 (ha e List.mem_cons_self).2
    obtain ⟨s, h2, o2, w2⟩ := ih o1 w1 (fun e hm => ha e (List.mem_cons_of_mem _ hm))
    refine ⟨s, by rw [List.foldlM_cons, h1]; exact h2, o2, ?_⟩
    rw [List.append_assoc] at w2
    exact w2

theorem gmListFree_owns : ∀ {es : List (Nat × Nat)} {σ : Mem} {l : List Nat}, Owns σ (es.map Prod.fst ++ l) →
    ∃ σ', gmListFree es σ = .ok σ' ∧ Owns σ' l := by
  intro es
  induction es with
  | nil => intro σ l h; exact ⟨σ, rfl, h⟩
  | cons e es ih =>
    intro σ l h
    obtain ⟨σ1, h1, o1⟩ := free_owns (show Owns σ (e.1 :: (es.map Prod.fst ++ l)) from h)
    obtain ⟨σ2, h2, o2⟩ := ih o1
    exact ⟨σ2, by rw [gmListFree, use_ok h (by simp), Res.ok_bind, h1, Res.ok_bind, h2], o2⟩

theorem gmListsFree_owns {arr : Nat} : ∀ {ls : List (List (Nat × Nat))} {σ : Mem} {l : List Nat}, Owns σ (edgeNodePtrs ls ++ l) →
    arr ∈ l → ∃ σ', gmListsFree arr ls σ = .ok σ' ∧ Owns σ' l := by
  intro ls
  induction ls with
  | nil => intro σ l h _; exact ⟨σ, rfl, h⟩
  | cons es ls ih =>
    intro σ l h ha
    obtain ⟨σ1, h1, o1⟩ := gmListFree_owns (σ := σ) (es := es) (l := edgeNodePtrs ls ++ l) (h.swap (by
      intro q
      simp only [edgeNodePtrs, List.flatMap_cons, List.count_append]
      omega))
    obtain ⟨σ2, h2, o2⟩ := ih o1 ha
    exact ⟨σ2, by rw [gmListsFree, use_ok h (List.mem_append_right _ ha), Res.ok_bind, h1, Res.ok_bind, h2], o2⟩

/-- C124: for every list of edges between vertices of a graph all accesses are to blocks that are allocated, the blocks of the
graph and of the rest of the program are exactly those that are allocated, there is one node for each direction of each edge that
is not a loop, however often it is added, and after the graph is freed exactly the blocks of the rest are allocated. -/
theorem c124_list {σ : Mem} {l : List Nat} (h : Owns σ l) (n : Nat) {es : List (Nat × Nat)} (he : ∀ e ∈ es, e.1 < n ∧ e.2 < n) :
    ∃ s σ', gmRun σ n es = .ok s ∧ Owns s.1 (graphPtrs s.2 ++ l) ∧ NodesOf s.2 n es ∧ gmFree s.1 s.2 = .ok σ' ∧ Owns σ' l := by
  have o1 := alloc_owns (alloc_owns (alloc_owns h))
  have hrep : edgeNodePtrs (List.replicate n []) = [] := by simp [edgeNodePtrs]
  obtain ⟨s, h2, o2, w2⟩ := gmRun_owns (l := l) (n := n) es (es0 := []) (σ := (gmNew σ n).1) (g := (gmNew σ n).2) (o1.swap (by
    intro q
    simp only [gmNew, graphPtrs, hrep, List.count_append, List.count_cons, List.count_nil]
    omega)) ⟨by simp [gmNew], by
      intro x hx
      rw [List.eq_of_mem_replicate hx]
      exact List.nodup_nil, by
      intro v x hx w
      obtain ⟨_, hx⟩ := List.getElem?_eq_some_iff.mp hx
      simp only [gmNew, List.getElem_replicate] at hx
      subst hx
      simp [EdgeJoins]⟩ he
  have u : memUse s.1 s.2.self = .ok () := use_ok o2 (by simp [graphPtrs])
  obtain ⟨σ3, h3, o3⟩ := free_owns (σ := s.1) (p := s.2.name) (l := edgeNodePtrs s.2.lists ++ (s.2.arr :: s.2.self :: l)) (o2.swap (by
    intro q
    simp only [graphPtrs, List.count_append, List.count_cons, List.count_nil]
    omega))
  obtain ⟨σ4, h4, o4⟩ := gmListsFree_owns (arr := s.2.arr) o3 (by simp)
  obtain ⟨σ5, h5, o5⟩ := free_owns o4
  obtain ⟨σ6, h6, o6⟩ := free_owns o5
  exact ⟨s, σ6, h2, o2, w2, by simp [gmFree, u, h3, h4, h5, h6], o6⟩

/-- C124: an edge with a vertex that the graph does not have is refused. -/
theorem c124_fatal {σ : Mem} {l : List Nat} {g : MGraph} (h : Owns σ (graphPtrs g ++ l)) {v w : Nat}
    (hn : g.lists.length ≤ v ∨ g.lists.length ≤ w) : gmInsert σ g v w = .fatal := by
  have u : memUse σ g.self = .ok () := use_ok h (by simp [graphPtrs])
  rw [gmInsert, u, Res.ok_bind]
  split
  · split
    · omega
    · rfl
  · rfl

/-- C124: a graph with a matrix of weights gives back its three blocks. -/
theorem c124_matrix {σ : Mem} {l : List Nat} (h : Owns σ l) :
    Owns (gxNew σ).1 ([(gxNew σ).2.self, (gxNew σ).2.name, (gxNew σ).2.weights] ++ l) ∧
      ∃ σ', gxFree (gxNew σ).1 (gxNew σ).2 = .ok σ' ∧ Owns σ' l := by
  have o1 : Owns (gxNew σ).1 ([(gxNew σ).2.self, (gxNew σ).2.name, (gxNew σ).2.weights] ++ l) :=
    (alloc_owns (alloc_owns (alloc_owns h))).swap (by
      intro q
      simp only [gxNew, List.cons_append, List.nil_append, List.count_cons]
      omega)
  refine ⟨o1, ?_⟩
  have u : memUse (gxNew σ).1 (gxNew σ).2.self = .ok () := use_ok o1 (by simp)
  obtain ⟨σ3, h3, o3⟩ := free_owns (σ := (gxNew σ).1) (p := (gxNew σ).2.name) (l := (gxNew σ).2.weights :: (gxNew σ).2.self :: l)
    (o1.swap (by
      intro q
      simp only [List.cons_append, List.nil_append, List.count_cons]
      omega))
  obtain ⟨σ4, h4, o4⟩ := free_owns o3
  obtain ⟨σ5, h5, o5⟩ := free_owns o4
  exact ⟨σ5, by simp [gxFree, u, h3, h4, h5], o5⟩

/-- A triangle with one edge twice and a loop has six nodes. -/
example : (do
      let s ← gmRun ⟨[5], 6⟩ 4 [(0, 1), (1, 2), (1, 0), (2, 0), (3, 3)]
      pure (s.2.lists.map (·.map Prod.snd))) = Res.ok [[2, 1], [2, 0], [0, 1], []] ∧
    (do
      let s ← gmRun ⟨[5], 6⟩ 4 [(0, 1), (1, 2), (1, 0), (2, 0), (3, 3)]
      let σ ← gmFree s.1 s.2
      pure σ.live) = Res.ok [5] := by
  constructor <;> decide +kernel

end Nx
