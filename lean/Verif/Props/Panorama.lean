import Verif.Model.Panorama
import Verif.Spec.Panorama
import Verif.Props.Temple

/-! # C102: the network of images of a panorama -/

namespace Nx

section paths
variable {add : Rat → Rat → Rat} {big : Rat} {w : Nat → Nat → Rat} {n src : Nat} {weights : List Rat}

theorem WalkCost.nonneg (ha : RoundedAdd add big) {v : Nat} {c : Rat} (h : WalkCost add w n src v c) : 0 ≤ c := by
  induction h with
  | start => exact le_refl _
  | step _ _ hw ih => exact ih.trans (ha.infl _ _ ih hw)

theorem TreeCost.walk {next : List Int} {v : Nat} {c : Rat} (hl : next.length = n)
    (h : TreeCost add w src next v c) : WalkCost add w n src v c := by
  induction h with
  | root => exact .start
  | step _ _ hn hw ih =>
    refine .step ih ?_ hw
    have := (List.getElem?_eq_some_iff.mp hn).1
    omega

/-- What holds between the rounds. -/
structure PathInv (add : Rat → Rat → Rat) (big : Rat) (w : Nat → Nat → Rat) (n src k : Nat) (s : PathState) : Prop where
  ln : s.next.length = n
  lv : s.val.length = n
  lb : s.visited.length = n
  cnt : s.visited.count true = k
  root : s.next[src]? = some (src : Int)
  zero : s.val[src]? = some 0
  first : k = 0 → ∀ (v : Nat) x, v ≠ src → s.val[v]? = some x → x = big
  srcv : 0 < k → s.visited[src]? = some true
  tree : ∀ v, s.visited[v]? = some true → ∃ x, s.val[v]? = some x ∧ x < big ∧ TreeCost add w src s.next v x
  closed : ∀ v x, v ≠ src → s.val[v]? = some x → x < big →
    ∃ u y, s.next[v]? = some ((u : Nat) : Int) ∧ s.visited[u]? = some true ∧ s.val[u]? = some y ∧ 0 ≤ w u v ∧ x = add y (w u v)
  le : ∀ (v : Nat) x, s.val[v]? = some x → x ≤ big
  mini : ∀ v x, s.visited[v]? = some true → s.val[v]? = some x → ∀ c, WalkCost add w n src v c → x ≤ c
  front : ∀ u v x y, s.visited[u]? = some true → s.visited[v]? = some false → s.val[u]? = some x → s.val[v]? = some y → 0 ≤ w u v →
    y ≤ add x (w u v)

theorem PathInv.get {k : Nat} {s : PathState} (h : PathInv add big w n src k s) {v : Nat} (hv : v < n) :
    ∃ x b, s.val[v]? = some x ∧ s.visited[v]? = some b := by
  refine ⟨s.val[v]'(by rw [h.lv]; exact hv), s.visited[v]'(by rw [h.lb]; exact hv), ?_, ?_⟩ <;> simp

/-- A walk to a node that is not visited is not shorter than a bound of all these nodes. -/
theorem PathInv.bound {k : Nat} {s : PathState} (ha : RoundedAdd add big) (h : PathInv add big w n src k s) {m : Rat}
    (hm : ∀ (v : Nat) x, s.visited[v]? = some false → s.val[v]? = some x → m ≤ x) {v : Nat} {c : Rat} (hc : WalkCost add w n src v c)
    (hv : s.visited[v]? = some false) : m ≤ c := by
  induction hc with
  | start => exact hm _ _ hv h.zero
  | @step u v c hu hvn hw ih =>
    have hun : u < n := by
      cases hu with
      | start => have := (List.getElem?_eq_some_iff.mp h.zero).1; rw [h.lv] at this; exact this
      | step _ h' _ => exact h'
    obtain ⟨x, b, hx, hb⟩ := h.get hun
    obtain ⟨y, b', hy, -⟩ := h.get hvn
    cases b with
    | false => exact (ih hb).trans (ha.infl _ _ (hu.nonneg ha) hw)
    | true =>
      exact ((hm _ _ hv hy).trans (h.front u v x y hb hv hx hy hw)).trans (ha.mono _ _ _ (h.mini u x hb hx c hu))

theorem pick_spec {k : Nat} {s : PathState} (h : PathInv add big w n src k s) :
    ∃ c, forLoop n (pathPick s) 0 (-1, big) = .ok c ∧ (∀ (v : Nat) x, s.visited[v]? = some false → s.val[v]? = some x → c.2 ≤ x) ∧
      (c = (-1, big) ∨ ∃ v : Nat, v < n ∧ c.1 = v ∧ s.visited[v]? = some false ∧ s.val[v]? = some c.2 ∧ c.2 < big) := by
  obtain ⟨c, e, -, h1, h2⟩ := forLoop_spec (body := pathPick s) (n := n) (i0 := 0) (s := ((-1 : Int), big))
    (P := fun i (c : Int × Rat) => c.2 ≤ big ∧ (∀ v x, v < i → s.visited[v]? = some false → s.val[v]? = some x → c.2 ≤ x) ∧
      (c = (-1, big) ∨ ∃ v : Nat, v < n ∧ c.1 = v ∧ s.visited[v]? = some false ∧ s.val[v]? = some c.2 ∧ c.2 < big))
    (Nat.zero_le _) ⟨le_refl _, fun v x hv => by omega, Or.inl rfl⟩ (by
      rintro i c - hi ⟨h0, h1, h2⟩
      obtain ⟨x, b, hx, hb⟩ := h.get hi
      unfold pathPick
      rw [readAt_some hb, readAt_some hx]
      simp only [Res.ok_bind, Res.pure_eq]
      refine ⟨_, rfl, ?_⟩
      by_cases hc : b = false ∧ x < c.2
      · rw [if_pos hc]
        refine ⟨(hc.2.trans_le h0).le, ?_, Or.inr ⟨i, hi, rfl, by rw [hb, hc.1], hx, hc.2.trans_le h0⟩⟩
        intro v y hv hvf hy
        by_cases hvi : v = i
        · subst hvi
          rw [hx] at hy
          cases hy
          exact le_refl _
        · exact hc.2.le.trans (h1 v y (by omega) hvf hy)
      · rw [if_neg hc]
        refine ⟨h0, ?_, h2⟩
        intro v y hv hvf hy
        by_cases hvi : v = i
        · subst hvi
          rw [hx] at hy
          rw [hb] at hvf
          cases hy
          cases hvf
          exact not_lt.mp fun hlt => hc ⟨rfl, hlt⟩
        · exact h1 v y (by omega) hvf hy)
  refine ⟨c, e, fun v x hv hx => h1 v x ?_ hv hx, h2⟩
  have := (List.getElem?_eq_some_iff.mp hx).1
  rw [h.lv] at this
  exact this

/-- The nodes that are updated from the node `cur` at distance `a`. -/
def Updated (add : Rat → Rat → Rat) (w : Nat → Nat → Rat) (vis : List Bool) (val : List Rat) (cur : Nat) (a : Rat) (v : Nat) : Prop :=
  vis[v]? = some false ∧ 0 ≤ w cur v ∧ ∃ x, val[v]? = some x ∧ add a (w cur v) < x

theorem relax_spec (ha : RoundedAdd add big) (hw : HasWeights weights n w) {s : PathState} (ln : s.next.length = n)
    (lv : s.val.length = n) (lb : s.visited.length = n) (le : ∀ (v : Nat) x, s.val[v]? = some x → x ≤ big) {cur : Nat} {a : Rat}
    (hcur : s.visited[cur]? = some true) (hva : s.val[cur]? = some a) (h0 : 0 ≤ a) :
    ∃ t, forLoop n (pathRelax add big n weights cur) 0 s = .ok t ∧ t.visited = s.visited ∧ t.next.length = n ∧ t.val.length = n ∧
      ∀ v, (Updated add w s.visited s.val cur a v → t.val[v]? = some (add a (w cur v)) ∧ t.next[v]? = some (cur : Int)) ∧
        (¬ Updated add w s.visited s.val cur a v → t.val[v]? = s.val[v]? ∧ t.next[v]? = s.next[v]?) := by
  have hcn : cur < n := by
    have := (List.getElem?_eq_some_iff.mp hva).1
    omega
  obtain ⟨t, e, h1, h2, h3, h4⟩ := forLoop_spec (body := pathRelax add big n weights cur) (n := n) (i0 := 0) (s := s)
    (P := fun i t => t.visited = s.visited ∧ t.next.length = n ∧ t.val.length = n ∧
      ∀ v, (v < i ∧ Updated add w s.visited s.val cur a v → t.val[v]? = some (add a (w cur v)) ∧ t.next[v]? = some (cur : Int)) ∧
        (¬ (v < i ∧ Updated add w s.visited s.val cur a v) → t.val[v]? = s.val[v]? ∧ t.next[v]? = s.next[v]?))
    (Nat.zero_le _) ⟨rfl, ln, lv, fun v => ⟨fun h => by omega, fun _ => ⟨rfl, rfl⟩⟩⟩ (by
      rintro i t - hi ⟨h1, h2, h3, h4⟩
      have hb : t.visited[i]? = some (s.visited[i]'(by omega)) := by rw [h1]; simp
      have hxi : s.val[i]? = some (s.val[i]'(by omega)) := by simp
      have hti : t.val[i]? = some (s.val[i]'(by omega)) := by rw [((h4 i).2 (by omega)).1]; exact hxi
      have htc : t.val[cur]? = some a := by
        rw [((h4 cur).2 (by rintro ⟨-, h, -⟩; rw [hcur] at h; cases h)).1]
        exact hva
      generalize s.val[i]'(by omega) = x at hxi hti
      have hbs : s.visited[i]? = some (s.visited[i]'(by omega)) := by simp
      generalize s.visited[i]'(by omega) = b at hb hbs
      have keep : ¬ Updated add w s.visited s.val cur a i → ∀ v,
          (v < i + 1 ∧ Updated add w s.visited s.val cur a v → t.val[v]? = some (add a (w cur v)) ∧ t.next[v]? = some (cur : Int)) ∧
          (¬ (v < i + 1 ∧ Updated add w s.visited s.val cur a v) → t.val[v]? = s.val[v]? ∧ t.next[v]? = s.next[v]?) := by
        intro hn v
        refine ⟨fun hv => (h4 v).1 ⟨?_, hv.2⟩, fun hv => (h4 v).2 fun hh => hv ⟨by omega, hh.2⟩⟩
        have : v ≠ i := by rintro rfl; exact hn hv.2
        omega
      unfold pathRelax
      rw [readAt_some hb]
      simp only [Res.ok_bind]
      cases b with
      | true =>
        refine ⟨t, rfl, h1, h2, h3, keep ?_⟩
        rintro ⟨h, -⟩
        rw [hbs] at h
        cases h
      | false =>
        have hwi := hw cur i hcn hi
        have e1 : readI weights ((cur : Int) * n + i) = .ok (w cur i) := by
          have ei : (cur : Int) * n + i = ((cur * n + i : Nat) : Int) := by push_cast; rfl
          rw [ei]
          unfold readI
          rw [if_pos (by omega)]
          exact readAt_some hwi
        have e2 : readI t.val (cur : Int) = .ok a := by
          unfold readI
          rw [if_pos (by omega)]
          exact readAt_some htc
        rw [e1, e2, readAt_some hti]
        simp only [Res.ok_bind, Bool.false_eq_true, if_false]
        by_cases hneg : w cur i < 0
        · rw [if_pos hneg, if_neg]
          · exact ⟨t, rfl, h1, h2, h3, keep fun h => absurd h.2.1 (not_le.mpr hneg)⟩
          · exact not_lt.mpr (((le i x hxi).trans ha.top).trans (ha.mono _ _ _ h0))
        · rw [if_neg hneg]
          by_cases hlt : add a (w cur i) < x
          · rw [if_pos hlt, writeAt_ok _ (by omega), writeAt_ok _ (by omega)]
            simp only [Res.ok_bind, Res.pure_eq]
            refine ⟨_, rfl, h1, by simp [h2], by simp [h3], fun v => ?_⟩
            have hui : Updated add w s.visited s.val cur a i := ⟨hbs, not_lt.mp hneg, x, hxi, hlt⟩
            by_cases hvi : v = i
            · subst hvi
              refine ⟨fun _ => ⟨?_, ?_⟩, fun hh => absurd ⟨by omega, hui⟩ hh⟩
              · rw [List.getElem?_set_self (by omega)]
              · rw [List.getElem?_set_self (by omega)]
            · rw [List.getElem?_set_ne (by omega), List.getElem?_set_ne (by omega)]
              exact ⟨fun hv => (h4 v).1 ⟨by omega, hv.2⟩, fun hv => (h4 v).2 fun hh => hv ⟨by omega, hh.2⟩⟩
          · rw [if_neg hlt]
            refine ⟨t, rfl, h1, h2, h3, keep ?_⟩
            rintro ⟨-, -, y, hy, hlt'⟩
            rw [hxi] at hy
            cases hy
            exact hlt hlt')
  refine ⟨t, e, h1, h2, h3, fun v => ⟨fun hv => (h4 v).1 ⟨?_, hv⟩, fun hv => (h4 v).2 fun hh => hv hh.2⟩⟩
  have := (List.getElem?_eq_some_iff.mp hv.1).1
  omega

theorem count_set_true {l : List Bool} {i : Nat} (h : l[i]? = some false) : (l.set i true).count true = l.count true + 1 := by
  induction l generalizing i with
  | nil => simp at h
  | cons b l ih =>
    cases i with
    | zero =>
      simp at h
      subst h
      simp
    | succ i =>
      simp only [List.getElem?_cons_succ] at h
      simp only [List.set_cons_succ, List.count_cons, ih h]
      omega

theorem TreeCost.congr {next next' : List Int} {vis : List Bool} (hc : ∀ v : Nat, vis[v]? = some true → next'[v]? = next[v]?)
    (hcl : ∀ v u : Nat, v ≠ src → vis[v]? = some true → next[v]? = some (u : Int) → vis[u]? = some true) {v : Nat} {c : Rat}
    (h : TreeCost add w src next v c) (hv : vis[v]? = some true) : TreeCost add w src next' v c := by
  induction h with
  | root => exact .root
  | step hu hs hn hw ih => exact .step (ih (hcl _ _ hs hv hn)) hs (by rw [hc _ hv]; exact hn) hw

theorem round_spec (ha : RoundedAdd add big) (hw : HasWeights weights n w) {k : Nat} {s : PathState}
    (h : PathInv add big w n src k s) :
    (pathRound add big n weights k s = .ub ∧ ∀ v c, s.visited[v]? = some false → WalkCost add w n src v c → big ≤ c) ∨
      ∃ t, pathRound add big n weights k s = .ok t ∧ PathInv add big w n src (k + 1) t := by
  obtain ⟨c, ec, hm, hc⟩ := pick_spec h
  unfold pathRound
  rw [ec]
  simp only [Res.ok_bind]
  rcases hc with rfl | ⟨cur, hcn, e1, hcf, hcv, hcb⟩
  · left
    refine ⟨rfl, fun v c hv hcc => h.bound ha hm hcc hv⟩
  · right
    obtain ⟨ci, a⟩ := c
    simp only at e1 hcv hcb hm
    subst e1
    have e2 : writeI s.visited (cur : Int) true = .ok (s.visited.set cur true) := by
      unfold writeI
      rw [if_pos (by omega)]
      exact writeAt_ok _ (by rw [h.lb]; exact hcn)
    simp only [e2, Res.ok_bind]
    have hself : (s.visited.set cur true)[cur]? = some true := List.getElem?_set_self (by rw [h.lb]; exact hcn)
    have hother : ∀ v, v ≠ cur → (s.visited.set cur true)[v]? = s.visited[v]? := fun v hv => List.getElem?_set_ne (by omega)
    -- the new node hangs in the tree
    have htc : TreeCost add w src s.next cur a := by
      by_cases hs : cur = src
      · subst hs
        rw [h.zero] at hcv
        cases hcv
        exact .root
      · obtain ⟨u, y, h1, h2, h3, h4, h5⟩ := h.closed cur a hs hcv hcb
        obtain ⟨y', h6, -, h7⟩ := h.tree u h2
        rw [h3] at h6
        cases h6
        rw [h5]
        exact .step h7 hs h1 h4
    have h0 : 0 ≤ a := (htc.walk h.ln).nonneg ha
    have hmin : ∀ c, WalkCost add w n src cur c → a ≤ c := fun c hcc => h.bound ha hm hcc hcf
    obtain ⟨t, et, t1, t2, t3, t4⟩ := relax_spec ha hw (s := { s with visited := s.visited.set cur true }) h.ln h.lv
      (by simp [h.lb]) h.le hself hcv h0
    simp only at t1 t4
    refine ⟨t, et, ?_⟩
    have hnup : ∀ v, t.visited[v]? = some true → ¬ Updated add w (s.visited.set cur true) s.val cur a v := by
      rintro v hv ⟨h1, -⟩
      rw [t1, h1] at hv
      cases hv
    -- a visited node is an old one or the new one
    have hvis : ∀ v, t.visited[v]? = some true → v = cur ∨ s.visited[v]? = some true := by
      intro v hv
      by_cases hvc : v = cur
      · exact Or.inl hvc
      · rw [t1, hother v hvc] at hv
        exact Or.inr hv
    have hold : ∀ v : Nat, s.visited[v]? = some true → t.visited[v]? = some true := by
      intro v hv
      rw [t1]
      by_cases hvc : v = cur
      · rw [hvc]; exact hself
      · rw [hother v hvc]; exact hv
    have hcurt : t.visited[cur]? = some true := by rw [t1]; exact hself
    have hun : ∀ v, t.visited[v]? = some false → v ≠ cur ∧ s.visited[v]? = some false := by
      intro v hv
      have hvc : v ≠ cur := by
        rintro rfl
        rw [hcurt] at hv
        cases hv
      rw [t1, hother v hvc] at hv
      exact ⟨hvc, hv⟩
    have hsrc : t.visited[src]? = some true := by
      rcases Nat.eq_zero_or_pos k with hk | hk
      · have : cur = src := by
          by_contra hne
          have := h.first hk cur a hne hcv
          rw [this] at hcb
          exact lt_irrefl _ hcb
        rw [← this]
        exact hcurt
      · exact hold _ (h.srcv hk)
    have ht_tree : ∀ v, t.visited[v]? = some true → ∃ x, t.val[v]? = some x ∧ x < big ∧ TreeCost add w src t.next v x := by
      intro v hv
      have hcong : ∀ {v x}, TreeCost add w src s.next v x → t.visited[v]? = some true → TreeCost add w src t.next v x := by
        intro v x htr hvv
        refine htr.congr (vis := t.visited) (fun v hv => ((t4 v).2 (hnup v hv)).2) ?_ hvv
        intro v u hs hv hn
        have : ∃ x, s.val[v]? = some x ∧ x < big := by
          rcases hvis v hv with rfl | hv
          · exact ⟨a, hcv, hcb⟩
          · obtain ⟨x, h1, h2, -⟩ := h.tree v hv
            exact ⟨x, h1, h2⟩
        obtain ⟨x, h1, h2⟩ := this
        obtain ⟨u', y, h3, h4, -⟩ := h.closed v x hs h1 h2
        rw [hn] at h3
        cases h3
        exact hold _ h4
      rw [((t4 v).2 (hnup v hv)).1]
      rcases hvis v hv with rfl | hv'
      · exact ⟨a, hcv, hcb, hcong htc hv⟩
      · obtain ⟨x, h1, h2, h3⟩ := h.tree v hv'
        exact ⟨x, h1, h2, hcong h3 hv⟩
    have hcvt : t.val[cur]? = some a := by rw [((t4 cur).2 (hnup cur hcurt)).1]; exact hcv
    constructor
    · exact t2
    · exact t3
    · rw [t1, List.length_set, h.lb]
    · rw [t1, count_set_true hcf, h.cnt]
    · rw [((t4 src).2 (hnup src hsrc)).2]
      exact h.root
    · rw [((t4 src).2 (hnup src hsrc)).1]
      exact h.zero
    · intro hk
      omega
    · intro _
      exact hsrc
    · exact ht_tree
    · intro v x hs hx hxb
      by_cases hu : Updated add w (s.visited.set cur true) s.val cur a v
      · obtain ⟨h1, h2⟩ := (t4 v).1 hu
        rw [h1] at hx
        cases hx
        exact ⟨cur, a, h2, hcurt, hcvt, hu.2.1, rfl⟩
      · obtain ⟨h1, h2⟩ := (t4 v).2 hu
        rw [h1] at hx
        obtain ⟨u, y, q1, q2, q3, q4, q5⟩ := h.closed v x hs hx hxb
        refine ⟨u, y, by rw [h2]; exact q1, hold _ q2, ?_, q4, q5⟩
        rw [((t4 u).2 (hnup u (hold _ q2))).1]
        exact q3
    · intro v x hx
      by_cases hu : Updated add w (s.visited.set cur true) s.val cur a v
      · obtain ⟨h1, -⟩ := (t4 v).1 hu
        rw [h1] at hx
        cases hx
        obtain ⟨-, -, y, hy, hlt⟩ := hu
        exact hlt.le.trans (h.le v y hy)
      · rw [((t4 v).2 hu).1] at hx
        exact h.le v x hx
    · intro v x hv hx cc hcc
      rw [((t4 v).2 (hnup v hv)).1] at hx
      rcases hvis v hv with rfl | hv'
      · rw [hcv] at hx
        cases hx
        exact hmin _ hcc
      · exact h.mini v x hv' hx cc hcc
    · intro u v x y hu hv hx hy hwuv
      obtain ⟨hvc, hvf⟩ := hun v hv
      have hvn : v < n := by
        have := (List.getElem?_eq_some_iff.mp hy).1
        omega
      obtain ⟨z, -, hz, -⟩ := h.get hvn
      have hyz : y ≤ z := by
        by_cases hup : Updated add w (s.visited.set cur true) s.val cur a v
        · rw [((t4 v).1 hup).1] at hy
          cases hy
          obtain ⟨-, -, z', hz', hlt⟩ := hup
          rw [hz] at hz'
          cases hz'
          exact hlt.le
        · rw [((t4 v).2 hup).1, hz] at hy
          cases hy
          exact le_refl _
      rw [((t4 u).2 (hnup u hu)).1] at hx
      rcases hvis u hu with rfl | hu'
      · rw [hcv] at hx
        cases hx
        by_cases hup : Updated add w (s.visited.set u true) s.val u a v
        · rw [((t4 v).1 hup).1] at hy
          cases hy
          exact le_refl _
        · refine hyz.trans (not_lt.mp fun hlt => hup ⟨?_, hwuv, z, hz, hlt⟩)
          rw [hother v hvc]
          exact hvf
      · exact hyz.trans (h.front u v x z hu' hvf hx hz hwuv)

theorem start_inv (ha : RoundedAdd add big) (hs : src < n) :
    PathInv add big w n src 0 ⟨(List.replicate n (-1)).set src src, (List.replicate n big).set src 0, List.replicate n false⟩ := by
  have hv : ∀ v : Nat, (List.replicate n false)[v]? ≠ some true := by
    intro v hv
    rw [List.getElem?_replicate] at hv
    split at hv <;> cases hv
  have hval : ∀ (v : Nat) x, v ≠ src → ((List.replicate n big).set src 0)[v]? = some x → x = big := by
    intro v x hv hx
    rw [List.getElem?_set_ne (by omega), List.getElem?_replicate] at hx
    split at hx
    · cases hx; rfl
    · cases hx
  have hz : ((List.replicate n big).set src 0)[src]? = some 0 := List.getElem?_set_self (by simpa using hs)
  constructor
  · simp
  · simp
  · simp
  · simp [List.count_replicate]
  · exact List.getElem?_set_self (by simpa using hs)
  · exact hz
  · intro _ v x hv hx
    exact hval v x hv hx
  · intro h
    omega
  · intro v h
    exact absurd h (hv v)
  · intro v x hv hx hlt
    rw [hval v x hv hx] at hlt
    exact absurd hlt (lt_irrefl _)
  · intro v x hx
    by_cases hvs : v = src
    · subst hvs
      rw [hz] at hx
      cases hx
      exact ha.pos.le
    · rw [hval v x hvs hx]
  · intro v x h
    exact absurd h (hv v)
  · intro u v x y h
    exact absurd h (hv u)

theorem all_visited {k : Nat} {s : PathState} (h : PathInv add big w n src k s) (hk : k = n) {v : Nat} (hv : v < n) :
    s.visited[v]? = some true := by
  have h1 : s.visited.count true = s.visited.length := by rw [h.cnt, h.lb, hk]
  rw [List.count_eq_length] at h1
  rw [List.getElem?_eq_getElem (by rw [h.lb]; exact hv)]
  rw [← h1 _ (List.getElem_mem _)]

theorem some_unvisited {k : Nat} {s : PathState} (h : PathInv add big w n src k s) (hk : k < n) :
    ∃ v, v < n ∧ s.visited[v]? = some false := by
  have h1 : ¬ s.visited.count true = s.visited.length := by rw [h.cnt, h.lb]; omega
  rw [List.count_eq_length] at h1
  simp only [not_forall] at h1
  obtain ⟨b, hb, hne⟩ := h1
  obtain ⟨v, hv, rfl⟩ := List.getElem_of_mem hb
  refine ⟨v, by rw [← h.lb]; exact hv, ?_⟩
  rw [List.getElem?_eq_getElem hv]
  cases hbb : s.visited[v]
  · rfl
  · rw [hbb] at hne; exact absurd rfl hne

theorem shortestPaths_start (hs : src < n) : shortestPaths add big n weights (src : Int) =
    ((forLoop n (pathRound add big n weights) 0
      ⟨(List.replicate n (-1)).set src src, (List.replicate n big).set src 0, List.replicate n false⟩) >>= fun s => .ok s.next) := by
  unfold shortestPaths writeI
  rw [if_pos (by omega), if_pos (by omega), writeAt_ok _ (by simpa using hs), writeAt_ok _ (by simpa using hs)]
  rfl

/-- If every image is connected to the reference, the array returned leads every image to the reference along existing homographies, on a
path that is not longer than any other. -/
theorem c102_paths (ha : RoundedAdd add big) (hw : HasWeights weights n w) (hs : src < n)
    (hr : ∀ v, v < n → ∃ c, WalkCost add w n src v c ∧ c < big) :
    ∃ next, shortestPaths add big n weights (src : Int) = .ok next ∧ next.length = n ∧ next[src]? = some (src : Int) ∧
      ∀ v, v < n → ∃ c, TreeCost add w src next v c ∧ ∀ c', WalkCost add w n src v c' → c ≤ c' := by
  obtain ⟨s, e, h⟩ := forLoop_spec (fun k s => PathInv add big w n src k s) (n := n) (i0 := 0) (Nat.zero_le _) (start_inv ha hs)
    (body := pathRound add big n weights) (by
      intro k s _ hk hp
      rcases round_spec ha hw hp with ⟨-, hub⟩ | ⟨t, et, ht⟩
      · obtain ⟨v, hvn, hvf⟩ := some_unvisited hp hk
        obtain ⟨c, hc, hlt⟩ := hr v hvn
        exact absurd (hub v c hvf hc) (not_le.mpr hlt)
      · exact ⟨t, et, ht⟩)
  rw [shortestPaths_start hs, e]
  refine ⟨s.next, rfl, h.ln, h.root, fun v hv => ?_⟩
  have hvis := all_visited h rfl hv
  obtain ⟨x, h1, -, h3⟩ := h.tree v hvis
  exact ⟨x, h3, h.mini v x hvis h1⟩

/-- If an image is not connected to the reference, the search writes to `visited[-1]`. -/
theorem c102_unconnected (ha : RoundedAdd add big) (hw : HasWeights weights n w) (hs : src < n) {v : Nat} (hv : v < n)
    (hr : ∀ c, WalkCost add w n src v c → big ≤ c) : shortestPaths add big n weights (src : Int) = .ub := by
  rw [shortestPaths_start hs]
  have key : ∀ (m k : Nat) (s : PathState), n - k = m → k ≤ n → PathInv add big w n src k s →
      forLoop n (pathRound add big n weights) k s = .ub := by
    intro m
    induction m with
    | zero =>
      intro k s hm hk hp
      have hvis := all_visited hp (by omega) hv
      obtain ⟨x, -, h2, h3⟩ := hp.tree v hvis
      exact absurd (hr x (h3.walk hp.ln)) (not_le.mpr h2)
    | succ m ih =>
      intro k s hm hk hp
      rw [forLoop, if_pos (by omega)]
      rcases round_spec ha hw hp with ⟨e, -⟩ | ⟨t, e, ht⟩
      · rw [e]; rfl
      · rw [e]
        exact ih (k + 1) t (by omega) (by omega) ht
  rw [key n 0 _ (by omega) (Nat.zero_le _) (start_inv ha hs)]
  rfl

end paths

end Nx
