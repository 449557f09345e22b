import Verif.Model.Graph

/-! # C36: graph representations agree with the mathematical graph -/

namespace Nx

/-- An insertion: v, w, weight. -/
abbrev Insertion := Int × Int × BitVec 64

/-- The insertion joins `a` and `b` (it is not a self loop). -/
def Insertion.Joins (e : Insertion) (a b : Int) : Prop :=
  e.1 ≠ e.2.1 ∧ ((e.1 = a ∧ e.2.1 = b) ∨ (e.1 = b ∧ e.2.1 = a))

instance (e : Insertion) (a b : Int) : Decidable (e.Joins a b) := by unfold Insertion.Joins; infer_instance

/-- The weight of the edge between `a` and `b` after the insertions `h`: that of the
last insertion joining them, `none` if there is none. -/
def weightOf (h : List Insertion) (a b : Int) : Option (BitVec 64) :=
  (h.reverse.find? (fun e => decide (e.Joins a b))).map (fun e => e.2.2)

/-- The insertions are between vertices 0 … n-1. -/
def InRange (n : Int) (h : List Insertion) : Prop :=
  ∀ e ∈ h, 0 ≤ e.1 ∧ e.1 < n ∧ 0 ≤ e.2.1 ∧ e.2.1 < n

theorem weightOf_snoc (h : List Insertion) (e : Insertion) (a b : Int) :
    weightOf (h ++ [e]) a b = if e.Joins a b then some e.2.2 else weightOf h a b := by
  unfold weightOf
  rw [List.reverse_append]
  simp only [List.reverse_cons, List.reverse_nil, List.nil_append, List.singleton_append, List.find?_cons]
  by_cases hj : e.Joins a b <;> simp [hj]

theorem joins_comm (e : Insertion) (a b : Int) : e.Joins a b ↔ e.Joins b a := by
  unfold Insertion.Joins; constructor <;> intro h <;> omega

theorem weightOf_comm (h : List Insertion) (a b : Int) : weightOf h a b = weightOf h b a := by
  unfold weightOf
  congr 2
  funext e
  exact decide_eq_decide.mpr (joins_comm e a b)

theorem weightOf_self (h : List Insertion) (a : Int) : weightOf h a a = none := by
  unfold weightOf
  rw [Option.map_eq_none_iff, List.find?_eq_none]
  intro e _
  simp only [decide_eq_true_eq]
  unfold Insertion.Joins
  omega

theorem weightOf_isSome (h : List Insertion) (a b : Int) : weightOf h a b ≠ none ↔ ∃ e ∈ h, e.Joins a b := by
  unfold weightOf
  rw [Ne, Option.map_eq_none_iff, List.find?_eq_none]
  constructor
  · intro hh
    apply Classical.byContradiction
    intro hc
    apply hh
    intro e he
    simp only [decide_eq_true_eq]
    exact fun hj => hc ⟨e, List.mem_reverse.mp he, hj⟩
  · rintro ⟨e, he, hj⟩ hh
    exact hh e (List.mem_reverse.mpr he) (by simpa using hj)

theorem weightOf_mem {h : List Insertion} {a b : Int} {x : BitVec 64} (hw : weightOf h a b = some x) :
    ∃ e ∈ h, e.Joins a b ∧ e.2.2 = x := by
  unfold weightOf at hw
  rw [Option.map_eq_some_iff] at hw
  obtain ⟨e, h1, h2⟩ := hw
  exact ⟨e, List.mem_reverse.mp (List.mem_of_find?_eq_some h1), by simpa using List.find?_some h1, h2⟩

/-- `l` lists the edges inserted by `h`, each once, smaller vertex first. -/
def EdgeList (h : List Insertion) (l : List (Int × Int)) : Prop :=
  l.Nodup ∧ ∀ a b, (a, b) ∈ l ↔ a < b ∧ ∃ e ∈ h, e.Joins a b

/-! ## Adjacency matrix -/

theorem idx_lt {n a b : Int} (ha : 0 ≤ a ∧ a < n) (hb : 0 ≤ b ∧ b < n) :
    0 ≤ a * n + b ∧ (a * n + b).toNat < (n * n).toNat := by
  have h1 : 0 ≤ a * n := Int.mul_nonneg ha.1 (by omega)
  have h2 : (a + 1) * n ≤ n * n := Int.mul_le_mul_of_nonneg_right (by omega) (by omega)
  rw [Int.add_mul, Int.one_mul] at h2
  omega

theorem idx_inj {n a b c d : Int} (hb : 0 ≤ b ∧ b < n) (hd : 0 ≤ d ∧ d < n)
    (h : a * n + b = c * n + d) : a = c ∧ b = d := by
  have h1 : (a * n + b) / n = a := by
    rw [Int.add_comm, Int.add_mul_ediv_right _ _ (by omega), Int.ediv_eq_zero_of_lt hb.1 hb.2]; omega
  have h2 : (c * n + d) / n = c := by
    rw [Int.add_comm, Int.add_mul_ediv_right _ _ (by omega), Int.ediv_eq_zero_of_lt hd.1 hd.2]; omega
  have h3 : a = c := by rw [← h1, h, h2]
  subst h3
  exact ⟨rfl, by omega⟩

/-- What holds after the insertions `h`. -/
structure MatInv (n : Int) (h : List Insertion) (g : AdjMat) : Prop where
  nV : g.nV = n
  length : g.weights.length = (n * n).toNat
  entry : ∀ a b, 0 ≤ a ∧ a < n → 0 ≤ b ∧ b < n →
    g.read a b = .ok (match weightOf h a b with | some x => x | none => absentWeight)
  count : ∃ l : List (Int × Int), EdgeList h l ∧ g.nE = l.length

theorem AdjMat.write_ok {n : Int} {g : AdjMat} (hn : g.nV = n) (hl : g.weights.length = (n * n).toNat)
    {a b : Int} (ha : 0 ≤ a ∧ a < n) (hb : 0 ≤ b ∧ b < n) (x : BitVec 64) :
    ∃ g', g.write a b x = .ok g' ∧ g'.nV = n ∧ g'.nE = g.nE ∧ g'.weights.length = (n * n).toNat ∧
      ∀ c d, 0 ≤ c ∧ c < n → 0 ≤ d ∧ d < n →
        g'.read c d = if c = a ∧ d = b then .ok x else g.read c d := by
  have hi := idx_lt ha hb
  unfold AdjMat.write
  rw [hn, if_pos hi.1, writeAt_ok _ (by omega)]
  refine ⟨_, rfl, rfl, rfl, by simp [hl], ?_⟩
  intro c d hc hd
  have hj := idx_lt hc hd
  unfold AdjMat.read
  simp only [hn]
  rw [if_pos hj.1, if_pos hj.1]
  unfold readAt
  rw [List.getElem?_set]
  by_cases he : c = a ∧ d = b
  · rw [he.1, he.2, if_pos rfl, if_pos (by omega), if_pos ⟨rfl, rfl⟩]
  · rw [if_neg, if_neg he]
    intro h
    have h' : a * n + b = c * n + d := by omega
    have := idx_inj hb hd h'
    omega

theorem edgeList_old {h : List Insertion} {e : Insertion} {l : List (Int × Int)} (hl : EdgeList h l)
    (hold : e.1 = e.2.1 ∨ ∃ e' ∈ h, e'.Joins e.1 e.2.1) : EdgeList (h ++ [e]) l := by
  refine ⟨hl.1, ?_⟩
  intro a b
  rw [hl.2]
  constructor
  · rintro ⟨h1, e', h2, h3⟩
    exact ⟨h1, e', by simp [h2], h3⟩
  · rintro ⟨h1, e', h2, h3⟩
    refine ⟨h1, ?_⟩
    rcases List.mem_append.mp h2 with h2 | h2
    · exact ⟨e', h2, h3⟩
    · rw [List.mem_singleton] at h2
      subst h2
      rcases hold with ho | ⟨e2, g1, g2⟩
      · exact absurd ho h3.1
      · refine ⟨e2, g1, ?_⟩
        unfold Insertion.Joins at h3 g2 ⊢
        omega

theorem edgeList_new {h : List Insertion} {e : Insertion} {l : List (Int × Int)} (hl : EdgeList h l)
    (hne : e.1 ≠ e.2.1) (hnew : ¬ ∃ e' ∈ h, e'.Joins e.1 e.2.1) :
    EdgeList (h ++ [e]) ((if e.1 < e.2.1 then (e.1, e.2.1) else (e.2.1, e.1)) :: l) := by
  constructor
  · rw [List.nodup_cons]
    refine ⟨?_, hl.1⟩
    intro hm
    split at hm
    · rw [hl.2] at hm; exact hnew hm.2
    · rw [hl.2] at hm
      obtain ⟨_, e', h1, h2⟩ := hm
      exact hnew ⟨e', h1, (joins_comm _ _ _).mp h2⟩
  · intro a b
    rw [List.mem_cons, hl.2]
    constructor
    · rintro (h1 | ⟨h1, e', h2, h3⟩)
      · split at h1
        · cases h1
          exact ⟨by omega, e, by simp, hne, by omega⟩
        · cases h1
          exact ⟨by omega, e, by simp, hne, by omega⟩
      · exact ⟨h1, e', by simp [h2], h3⟩
    · rintro ⟨h1, e', h2, h3⟩
      rcases List.mem_append.mp h2 with h2 | h2
      · exact Or.inr ⟨h1, e', h2, h3⟩
      · rw [List.mem_singleton] at h2
        subst h2
        left
        unfold Insertion.Joins at h3
        split
        · rw [Prod.mk.injEq]; omega
        · rw [Prod.mk.injEq]; omega

theorem matInv_insert {n : Int} {h : List Insertion} {g : AdjMat} (hi : MatInv n h g) {e : Insertion}
    (hr : 0 ≤ e.1 ∧ e.1 < n ∧ 0 ≤ e.2.1 ∧ e.2.1 < n) (hwt : ∀ e ∈ h, e.2.2 ≠ absentWeight) :
    ∃ g', adjMatInsert g e.1 e.2.1 e.2.2 = .ok g' ∧ MatInv n (h ++ [e]) g' := by
  obtain ⟨v, w, x⟩ := e
  simp only at hr ⊢
  unfold adjMatInsert assertIndex
  rw [hi.nV, if_pos (by omega), if_pos (by omega)]
  simp only [Res.ok_bind]
  by_cases hvw : v = w
  · rw [if_pos hvw]
    obtain ⟨l, l1, l2⟩ := hi.count
    refine ⟨g, rfl, hi.nV, hi.length, ?_, l, edgeList_old l1 (Or.inl hvw), l2⟩
    intro a b ha hb
    rw [weightOf_snoc, if_neg (fun hj => hj.1 hvw)]
    exact hi.entry a b ha hb
  · rw [if_neg hvw, hi.entry w v (by omega) (by omega)]
    simp only [Res.ok_bind]
    have hgc : ∀ old, (g.countEdge old).nV = n ∧ (g.countEdge old).weights = g.weights := by
      intro old; unfold AdjMat.countEdge; split <;> exact ⟨hi.nV, rfl⟩
    generalize hold : (match weightOf h w v with | some x => x | none => absentWeight) = old
    obtain ⟨g1, w1, w2, w3, w4, w5⟩ := AdjMat.write_ok (hgc old).1 (by rw [(hgc old).2]; exact hi.length)
      (a := w) (b := v) (by omega) (by omega) x
    rw [w1]
    simp only [Res.ok_bind]
    obtain ⟨g2, u1, u2, u3, u4, u5⟩ := AdjMat.write_ok w2 w4 (a := v) (b := w) (by omega) (by omega) x
    rw [u1]
    refine ⟨g2, rfl, u2, u4, ?_, ?_⟩
    · intro a b ha hb
      rw [u5 a b ha hb, w5 a b ha hb, weightOf_snoc]
      have hread : (g.countEdge old).read a b = g.read a b := by
        unfold AdjMat.read
        rw [(hgc _).1, (hgc _).2, hi.nV]
      rw [hread, hi.entry a b ha hb]
      by_cases hj : Insertion.Joins (v, w, x) a b
      · rw [if_pos hj]
        unfold Insertion.Joins at hj
        simp only at hj
        by_cases hc : a = v ∧ b = w
        · rw [if_pos hc]
        · rw [if_neg hc, if_pos (by omega)]
      · rw [if_neg hj]
        unfold Insertion.Joins at hj
        simp only at hj
        rw [if_neg (by omega), if_neg (by omega)]
    · obtain ⟨l, l1, l2⟩ := hi.count
      cases hwo : weightOf h w v with
      | none =>
        have hnew : ¬ ∃ e' ∈ h, Insertion.Joins e' v w := by
          rw [← weightOf_isSome, weightOf_comm, hwo]; simp
        refine ⟨_, edgeList_new l1 (e := (v, w, x)) hvw hnew, ?_⟩
        rw [hwo] at hold
        rw [u3, w3]
        unfold AdjMat.countEdge
        rw [if_pos hold.symm]
        simp only [List.length_cons]
        omega
      | some y =>
        have hex : ∃ e' ∈ h, Insertion.Joins e' v w := by
          rw [← weightOf_isSome, weightOf_comm, hwo]; simp
        refine ⟨l, edgeList_old l1 (Or.inr hex), ?_⟩
        rw [hwo] at hold
        simp only at hold
        rw [u3, w3]
        unfold AdjMat.countEdge
        obtain ⟨e', g1', _, g3⟩ := weightOf_mem hwo
        rw [if_neg (by rw [← hold, ← g3]; exact hwt e' g1')]
        exact l2

theorem matInv_run {n : Int} : ∀ (h2 h1 : List Insertion) (g : AdjMat), MatInv n h1 g → InRange n h2 →
    (∀ e ∈ h1 ++ h2, e.2.2 ≠ absentWeight) → ∃ g', adjMatRun g h2 = .ok g' ∧ MatInv n (h1 ++ h2) g'
  | [], h1, g, hi, _, _ => ⟨g, rfl, by simpa using hi⟩
  | e :: h2, h1, g, hi, hr, hw => by
    obtain ⟨g1, a1, a2⟩ := matInv_insert hi (hr e (by simp)) (fun e' he' => hw e' (by simp [he']))
    obtain ⟨g', b1, b2⟩ := matInv_run h2 (h1 ++ [e]) g1 a2 (fun e' he' => hr e' (by simp [he']))
      (by simpa using hw)
    refine ⟨g', ?_, by simpa using b2⟩
    obtain ⟨v, w, x⟩ := e
    rw [adjMatRun, a1]
    exact b1

/-- C36 for the adjacency matrix: after any insertions between existing vertices, of
weights other than the mark of absence, the matrix holds for every pair of vertices
the weight last inserted (either way around), the mark of absence if there is none
(in particular on the diagonal), and `n_e` is the number of distinct edges. -/
theorem c36_matrix (n : Int) (hn : 0 ≤ n) (hn2 : n * n ≤ 2147483647) (h : List Insertion) (hr : InRange n h)
    (hw : ∀ e ∈ h, e.2.2 ≠ absentWeight) :
    ∃ g0 g, adjMatNew n = .ok g0 ∧ adjMatRun g0 h = .ok g ∧ g.nV = n ∧
      (∀ a b, 0 ≤ a ∧ a < n → 0 ≤ b ∧ b < n →
        g.read a b = .ok (match weightOf h a b with | some x => x | none => absentWeight)) ∧
      ∃ l, EdgeList h l ∧ g.nE = l.length := by
  have hnn : 0 ≤ n * n := Int.mul_nonneg hn hn
  unfold adjMatNew
  rw [if_pos hn, if_pos (by constructor <;> omega)]
  have h0 : MatInv n [] ⟨n, 0, List.replicate (n * n).toNat absentWeight⟩ := by
    refine ⟨rfl, by simp, ?_, [], ⟨by simp, by simp⟩, rfl⟩
    intro a b ha hb
    have := idx_lt ha hb
    unfold AdjMat.read
    simp only
    rw [if_pos this.1, readAt_ok (by simpa using this.2)]
    simp [weightOf]
  obtain ⟨g, g1, g2⟩ := matInv_run h [] _ h0 hr (by simpa using hw)
  exact ⟨_, g, rfl, g1, g2.nV, g2.entry, g2.count⟩

/-- With the mark of absence as weight, an edge inserted twice is counted twice. -/
theorem c36_matrix_absent_weight :
    ((do
      let g ← adjMatNew 2
      let g ← adjMatRun g [(0, 1, absentWeight), (0, 1, absentWeight)]
      pure g.nE) : Res Int) = .ok 2 := by decide +kernel

/-! ## Adjacency lists -/

/-- The lists hold each neighbour once, with its weight. -/
structure LstInv (n : Int) (w : Int → Int → Option (BitVec 64)) (g : AdjLst) : Prop where
  nV : g.nV = n
  nE : g.nE = 0
  length : g.edges.length = n.toNat
  entry : ∀ a l, 0 ≤ a ∧ a < n → g.edges[a.toNat]? = some l →
    (∀ b, edgeSearch l b = w a b) ∧ (l.map (·.1)).Nodup

theorem edgeSetWeight_search (l : List (Int × BitVec 64)) (w b : Int) (x : BitVec 64) (hs : edgeSearch l w ≠ none) :
    edgeSearch (edgeSetWeight l w x) b = if b = w then some x else edgeSearch l b := by
  induction l with
  | nil => exact absurd rfl hs
  | cons e l ih =>
    unfold edgeSetWeight
    by_cases he : e.1 = w
    · rw [if_pos he]
      simp only [edgeSearch]
      by_cases hb : b = w
      · rw [if_pos hb, if_pos (by omega)]
      · rw [if_neg hb, if_neg (by omega), if_neg (by omega)]
    · rw [if_neg he]
      simp only [edgeSearch] at hs ⊢
      rw [if_neg he] at hs
      rw [ih hs]
      by_cases hb : b = w
      · rw [if_neg (by omega), if_pos hb, if_pos hb]
      · rw [if_neg hb, if_neg hb]

theorem edgeSetWeight_keys (l : List (Int × BitVec 64)) (w : Int) (x : BitVec 64) :
    (edgeSetWeight l w x).map (·.1) = l.map (·.1) := by
  induction l with
  | nil => rfl
  | cons e l ih =>
    unfold edgeSetWeight
    split
    · rfl
    · simp [ih]

theorem edgeSearch_none {l : List (Int × BitVec 64)} {w : Int} (h : edgeSearch l w = none) : w ∉ l.map (·.1) := by
  induction l with
  | nil => simp
  | cons e l ih =>
    unfold edgeSearch at h
    split at h
    · cases h
    · rename_i he
      simp only [List.map_cons, List.mem_cons, not_or]
      exact ⟨fun hc => he hc.symm, ih h⟩

theorem insertHalf_ok {n : Int} {W : Int → Int → Option (BitVec 64)} {g : AdjLst} (hi : LstInv n W g)
    {v w : Int} (hv : 0 ≤ v ∧ v < n) (x : BitVec 64) :
    ∃ g', g.insertHalf v w x = .ok g' ∧
      LstInv n (fun a b => if a = v ∧ b = w then some x else W a b) g' := by
  have hlt : v.toNat < g.edges.length := by have := hi.length; omega
  unfold AdjLst.insertHalf
  rw [readAt_ok hlt]
  simp only [Res.ok_bind]
  rw [writeAt_ok _ hlt]
  refine ⟨_, rfl, hi.nV, hi.nE, by simpa using hi.length, ?_⟩
  intro a l ha hl
  simp only at hl
  rw [List.getElem?_set] at hl
  by_cases hav : v.toNat = a.toNat
  · have e : a = v := by omega
    subst e
    rw [if_pos rfl, if_pos hlt] at hl
    cases hl
    obtain ⟨h1, h2⟩ := hi.entry a _ ha (List.getElem?_eq_getElem hlt)
    split
    · rename_i y hs
      refine ⟨?_, by rw [edgeSetWeight_keys]; exact h2⟩
      intro b
      rw [edgeSetWeight_search _ _ _ _ (by rw [hs]; simp), h1]
      simp
    · rename_i hs
      refine ⟨?_, ?_⟩
      · intro b
        simp only [edgeSearch]
        rw [h1]
        by_cases hb : w = b
        · rw [if_pos hb, if_pos ⟨trivial, hb.symm⟩]
        · rw [if_neg hb, if_neg (by omega)]
      · simp only [List.map_cons, List.nodup_cons]
        exact ⟨edgeSearch_none hs, h2⟩
  · rw [if_neg hav] at hl
    obtain ⟨h1, h2⟩ := hi.entry a l ha hl
    refine ⟨?_, h2⟩
    intro b
    rw [h1, if_neg (by omega)]

theorem lstInv_congr {n : Int} {W W' : Int → Int → Option (BitVec 64)} {g : AdjLst} (hi : LstInv n W g)
    (h : ∀ a b, W a b = W' a b) : LstInv n W' g :=
  ⟨hi.nV, hi.nE, hi.length, fun a l ha hl => ⟨fun b => by rw [(hi.entry a l ha hl).1 b, h], (hi.entry a l ha hl).2⟩⟩

theorem lstInv_insert {n : Int} {h : List Insertion} {g : AdjLst} (hi : LstInv n (weightOf h) g) {e : Insertion}
    (hr : 0 ≤ e.1 ∧ e.1 < n ∧ 0 ≤ e.2.1 ∧ e.2.1 < n) :
    ∃ g', adjLstInsert g e.1 e.2.1 e.2.2 = .ok g' ∧ LstInv n (weightOf (h ++ [e])) g' := by
  obtain ⟨v, w, x⟩ := e
  simp only at hr ⊢
  unfold adjLstInsert assertIndex
  rw [hi.nV, if_pos (by omega), if_pos (by omega)]
  simp only [Res.ok_bind]
  by_cases hvw : v = w
  · rw [if_pos hvw]
    refine ⟨g, rfl, lstInv_congr hi ?_⟩
    intro a b
    rw [weightOf_snoc, if_neg (fun hj => hj.1 hvw)]
  · rw [if_neg hvw]
    obtain ⟨g1, a1, a2⟩ := insertHalf_ok hi (v := v) (w := w) (by omega) x
    rw [a1]
    simp only [Res.ok_bind]
    obtain ⟨g2, b1, b2⟩ := insertHalf_ok a2 (v := w) (w := v) (by omega) x
    refine ⟨g2, b1, lstInv_congr b2 ?_⟩
    intro a b
    rw [weightOf_snoc]
    by_cases hj : Insertion.Joins (v, w, x) a b
    · rw [if_pos hj]
      unfold Insertion.Joins at hj
      simp only at hj
      by_cases hc : a = w ∧ b = v
      · rw [if_pos hc]
      · rw [if_neg hc, if_pos (by omega)]
    · rw [if_neg hj]
      unfold Insertion.Joins at hj
      simp only at hj
      rw [if_neg (by omega), if_neg (by omega)]

theorem lstInv_run {n : Int} : ∀ (h2 h1 : List Insertion) (g : AdjLst), LstInv n (weightOf h1) g → InRange n h2 →
    ∃ g', adjLstRun g h2 = .ok g' ∧ LstInv n (weightOf (h1 ++ h2)) g'
  | [], h1, g, hi, _ => ⟨g, rfl, by simpa using hi⟩
  | e :: h2, h1, g, hi, hr => by
    obtain ⟨g1, a1, a2⟩ := lstInv_insert hi (hr e (by simp))
    obtain ⟨g', b1, b2⟩ := lstInv_run h2 (h1 ++ [e]) g1 a2 (fun e' he' => hr e' (by simp [he']))
    refine ⟨g', ?_, by simpa using b2⟩
    obtain ⟨v, w, x⟩ := e
    rw [adjLstRun, a1]
    exact b1

/-- C36 for the adjacency lists, what holds: after any insertions between existing
vertices searching the list of `a` for `b` gives the weight last inserted (either way
around), NULL if there is none, and no list has a neighbour twice. Missing: the
number of edges, which stays 0 whatever is inserted (the last conjunct). -/
theorem c36_list_partial (n : Int) (hn : 0 ≤ n) (h : List Insertion) (hr : InRange n h) :
    ∃ g0 g, adjLstNew n = .ok g0 ∧ adjLstRun g0 h = .ok g ∧ g.nV = n ∧
      (∀ a, 0 ≤ a ∧ a < n → ∃ l, g.edges[a.toNat]? = some l ∧ (∀ b, edgeSearch l b = weightOf h a b) ∧
        (l.map (·.1)).Nodup) ∧
      g.nE = 0 := by
  unfold adjLstNew
  rw [if_pos hn]
  have h0 : LstInv n (weightOf []) ⟨n, 0, List.replicate n.toNat []⟩ := by
    refine ⟨rfl, rfl, by simp, ?_⟩
    intro a l ha hl
    simp only [List.getElem?_replicate] at hl
    split at hl
    · cases hl; exact ⟨fun b => rfl, by simp⟩
    · cases hl
  obtain ⟨g, g1, g2⟩ := lstInv_run h [] _ h0 hr
  refine ⟨_, g, rfl, g1, g2.nV, ?_, g2.nE⟩
  intro a ha
  have hlt : a.toNat < g.edges.length := by have := g2.length; omega
  exact ⟨_, List.getElem?_eq_getElem hlt, g2.entry a _ ha (List.getElem?_eq_getElem hlt)⟩

/-- The graph itself is undirected and without self loops. -/
theorem c36_symmetric (h : List Insertion) (a b : Int) :
    weightOf h a b = weightOf h b a ∧ weightOf h a a = none := ⟨weightOf_comm h a b, weightOf_self h a⟩

/-- The number of edges of an adjacency list graph is wrong after one insertion. -/
theorem c36_list_count_wrong :
    ((do
      let g ← adjLstNew 3
      let g ← adjLstRun g [(0, 1, 5)]
      pure g) : Res AdjLst) = .ok ⟨3, 0, [[(1, 5)], [(0, 5)], []]⟩ ∧ EdgeList [(0, 1, 5)] [(0, 1)] := by
  refine ⟨by decide +kernel, by simp, ?_⟩
  intro a b
  simp only [List.mem_singleton, Prod.mk.injEq, Insertion.Joins, exists_eq_left]
  omega

/-- Inserting an edge with an end that is not a vertex aborts, in both representations. -/
theorem c36_out_of_range (m : AdjMat) (l : AdjLst) (v w : Int) (x : BitVec 64) :
    (¬ (0 ≤ v ∧ v < m.nV ∧ 0 ≤ w ∧ w < m.nV) → adjMatInsert m v w x = .fatal) ∧
    (¬ (0 ≤ v ∧ v < l.nV ∧ 0 ≤ w ∧ w < l.nV) → adjLstInsert l v w x = .fatal) := by
  constructor
  · intro h
    unfold adjMatInsert assertIndex
    by_cases h1 : 0 ≤ v ∧ v ≤ m.nV - 1
    · rw [if_pos h1, if_neg (by omega)]; rfl
    · rw [if_neg h1]; rfl
  · intro h
    unfold adjLstInsert assertIndex
    by_cases h1 : 0 ≤ v ∧ v ≤ l.nV - 1
    · rw [if_pos h1, if_neg (by omega)]; rfl
    · rw [if_neg h1]; rfl

example : adjMatInsert ⟨2, 0, List.replicate 4 absentWeight⟩ 0 2 7 = .fatal := by decide +kernel

example : InRange 3 [(0, 1, 5), (2, 2, 1), (1, 0, 7), (1, 2, 3)] := by unfold InRange; decide

example : ((do
    let g ← adjMatNew 3
    let g ← adjMatRun g [(0, 1, 5), (2, 2, 1), (1, 0, 7), (1, 2, 3)]
    let x ← g.read 0 1
    pure (g.nE, x)) : Res (Int × BitVec 64)) = .ok (2, 7) := by decide +kernel

end Nx
