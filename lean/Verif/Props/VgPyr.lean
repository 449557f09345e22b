import Verif.Model.VgPyr
import Verif.Lemmas.Sample

/-!
# C140: C++ pyramids and the handles of their levels
-/

namespace Nx

/-- What an image belongs to: a level of a pyramid, or a builder. -/
inductive VpOwner where
  | level (p k : Nat)
  | work (b : Nat)
deriving DecidableEq

/-- The image `i` belongs to an object that is allocated. -/
inductive VpOwns (w : VpWorld) : Nat → VpOwner → Prop where
  | level {p k i : Nat} {l : List Nat} : w.pyrs[p]? = some (some l) → l[k]? = some i → VpOwns w i (.level p k)
  | work {b n i : Nat} : w.blds[b]? = some (some (n, i)) → VpOwns w i (.work b)

/-- An object that is allocated. -/
def VpLive {α : Type} (objs : List (Option α)) (q : Nat) : Prop := ∃ x, objs[q]? = some (some x)

/-- A variable that exists holds the object. -/
def VpHeld (f : Nat × Nat → Nat) (vars : List (Option (Nat × Nat))) (q : Nat) : Prop :=
  ∃ (v : Nat) (h : Nat × Nat), vars[v]? = some (some h) ∧ f h = q

/-- Images are allocated exactly if they belong to an object, and to one only. -/
structure VpOwn (w : VpWorld) : Prop where
  live : ∀ i, w.imgs[i]? = some true ↔ ∃ o, VpOwns w i o
  one : ∀ i o o', VpOwns w i o → VpOwns w i o' → o = o'

/-- What holds between calls: also, pyramids and builders are allocated exactly if a variable holds them. -/
structure VpInv (w : VpWorld) : Prop extends VpOwn w where
  pyrs : ∀ p, VpLive w.pyrs p ↔ VpHeld (·.1) w.vars p
  blds : ∀ b, VpLive w.blds b ↔ VpHeld (·.2) w.vars b

theorem vpHolds_iff (f : Nat × Nat → Nat) (vars : List (Option (Nat × Nat))) (q : Nat) : vpHolds f vars q = true ↔ VpHeld f vars q := by
  unfold vpHolds VpHeld
  rw [List.any_eq_true]
  constructor
  · rintro ⟨o, ho, h⟩
    cases o with
    | none => cases h
    | some x =>
      obtain ⟨v, hv⟩ := List.mem_iff_getElem?.mp ho
      exact ⟨v, x, hv, by simpa using h⟩
  · rintro ⟨v, x, hv, h⟩
    exact ⟨some x, List.mem_of_getElem? hv, by simpa using h⟩

theorem vpTouch_ok {w : VpWorld} {i : Nat} : vpTouch w i = .ok () ↔ w.imgs[i]? = some true := by
  unfold vpTouch
  constructor
  · intro h
    split at h
    · assumption
    · cases h
  · intro h
    rw [h]

theorem vpTouch_cases (w : VpWorld) (i : Nat) : vpTouch w i = .ok () ∨ vpTouch w i = .ub := by
  unfold vpTouch
  split
  · exact .inl rfl
  · exact .inr rfl

/-- Images that are all allocated and different can be freed. -/
theorem vpFreeAll_ok : ∀ (is : List Nat) (m : List Bool), is.Nodup → (∀ i ∈ is, m[i]? = some true) →
    ∃ m', vpFreeAll m is = .ok m' ∧ ∀ j, m'[j]? = some true ↔ m[j]? = some true ∧ j ∉ is := by
  intro is
  induction is with
  | nil => exact fun m _ _ => ⟨m, rfl, by simp⟩
  | cons i is ih =>
    intro m hn hl
    have hi := hl i (by simp)
    have hil : i < m.length := (List.getElem?_eq_some_iff.mp hi).1
    obtain ⟨m', e, h⟩ := ih (m.set i false) (List.nodup_cons.mp hn).2 (by
      intro j hj
      have : i ≠ j := fun e => (List.nodup_cons.mp hn).1 (e ▸ hj)
      rw [List.getElem?_set_ne this]
      exact hl j (by simp [hj]))
    refine ⟨m', ?_, ?_⟩
    · unfold vpFreeAll
      rw [hi]
      exact e
    · intro j
      rw [h, List.getElem?_set]
      by_cases hj : i = j
      · subst hj
        simp
      · rw [if_neg hj]
        simp [Ne.symm hj]

theorem VpOwn.levels_nodup {w : VpWorld} (h : VpOwn w) {p : Nat} {l : List Nat} (e : w.pyrs[p]? = some (some l)) : l.Nodup := by
  unfold List.Nodup
  rw [List.pairwise_iff_getElem]
  intro a b ha hb hab heq
  have hx : l[b]? = some l[b] := List.getElem?_eq_getElem hb
  have hy : l[a]? = some l[b] := by rw [List.getElem?_eq_getElem ha, heq]
  have := h.one _ _ _ (.level e hx) (.level e hy)
  cases this
  omega

theorem VpOwn.levels_live {w : VpWorld} (h : VpOwn w) {p : Nat} {l : List Nat} (e : w.pyrs[p]? = some (some l)) :
    ∀ i ∈ l, w.imgs[i]? = some true := by
  intro i hi
  obtain ⟨k, hk⟩ := List.mem_iff_getElem?.mp hi
  exact (h.live i).2 ⟨_, .level e hk⟩

theorem VpOwn.lt {w : VpWorld} (h : VpOwn w) {i : Nat} {o : VpOwner} (ho : VpOwns w i o) : i < w.imgs.length :=
  (List.getElem?_eq_some_iff.mp ((h.live i).2 ⟨o, ho⟩)).1

theorem vpLevels_ok {w : VpWorld} {p : Nat} {l : List Nat} : vpLevels w p = .ok l ↔ w.pyrs[p]? = some (some l) := by
  unfold vpLevels
  constructor
  · intro h
    split at h
    · cases h
      assumption
    · cases h
  · intro h
    rw [h]

theorem vpBld_ok {w : VpWorld} {b : Nat} {x : Nat × Nat} : vpBld w b = .ok x ↔ w.blds[b]? = some (some x) := by
  unfold vpBld
  constructor
  · intro h
    split at h
    · cases h
      assumption
    · cases h
  · intro h
    rw [h]

theorem vpVar_ok {w : VpWorld} {v : Nat} {x : Nat × Nat} : vpVar w v = .ok x ↔ w.vars[v]? = some (some x) := by
  unfold vpVar
  constructor
  · intro h
    split at h
    · cases h
      assumption
    · cases h
  · intro h
    rw [h]

/-- Freeing the levels of a pyramid; `x` is what is left of it. -/
theorem VpOwn.freeLevels {w : VpWorld} (h : VpOwn w) {p : Nat} {l : List Nat} (e : w.pyrs[p]? = some (some l)) {x : Option (List Nat)}
    (hx : x = none ∨ x = some []) : ∃ m, vpFreeAll w.imgs l = .ok m ∧ (∀ j, m[j]? = some true ↔ w.imgs[j]? = some true ∧ j ∉ l) ∧
      VpOwn { w with imgs := m, pyrs := w.pyrs.set p x } := by
  obtain ⟨m, em, hm⟩ := vpFreeAll_ok l w.imgs (h.levels_nodup e) (h.levels_live e)
  refine ⟨m, em, hm, ?_⟩
  have hp : p < w.pyrs.length := (List.getElem?_eq_some_iff.mp e).1
  have up : ∀ {i o}, VpOwns { w with imgs := m, pyrs := w.pyrs.set p x } i o → VpOwns w i o ∧ i ∉ l := by
    intro i o ho
    cases ho with
    | @level q k _ l' h1 h2 =>
      simp only at h1
      rw [List.getElem?_set] at h1
      by_cases hq : p = q
      · rw [if_pos hq, if_pos hp] at h1
        rcases hx with rfl | rfl
        · cases h1
        · cases h1
          simp at h2
      · rw [if_neg hq] at h1
        refine ⟨.level h1 h2, fun hi => ?_⟩
        obtain ⟨k', hk'⟩ := List.mem_iff_getElem?.mp hi
        have := h.one i _ _ (.level h1 h2) (.level e hk')
        cases this
        exact hq rfl
    | @work b n _ h1 =>
      refine ⟨.work h1, fun hi => ?_⟩
      obtain ⟨k', hk'⟩ := List.mem_iff_getElem?.mp hi
      have := h.one i _ _ (.work h1) (.level e hk')
      cases this
  refine ⟨?_, ?_⟩
  · intro i
    simp only
    rw [hm]
    constructor
    · rintro ⟨h1, h2⟩
      obtain ⟨o, ho⟩ := (h.live i).1 h1
      refine ⟨o, ?_⟩
      cases ho with
      | @level q k _ l' h3 h4 =>
        refine .level (l := l') ?_ h4
        simp only
        rw [List.getElem?_set_ne ?_]
        · exact h3
        · intro hq
          subst hq
          rw [e] at h3
          cases h3
          exact h2 (List.mem_of_getElem? h4)
      | work h3 => exact .work h3
    · rintro ⟨o, ho⟩
      obtain ⟨h1, h2⟩ := up ho
      exact ⟨(h.live i).2 ⟨o, h1⟩, h2⟩
  · intro i o o' h1 h2
    exact h.one i o o' (up h1).1 (up h2).1

/-- New images for the levels of a pyramid that has none. -/
theorem VpOwn.newLevels {w : VpWorld} (h : VpOwn w) {p : Nat} (e : w.pyrs[p]? = some (some [])) (n : Nat) : VpOwn (vpNewLevels w p n) := by
  have hp : p < w.pyrs.length := (List.getElem?_eq_some_iff.mp e).1
  have up : ∀ {i o}, VpOwns (vpNewLevels w p n) i o →
      (VpOwns w i o ∧ i < w.imgs.length) ∨ (w.imgs.length ≤ i ∧ i < w.imgs.length + n ∧ o = .level p (i - w.imgs.length)) := by
    intro i o ho
    cases ho with
    | @level q k _ l' h1 h2 =>
      simp only [vpNewLevels] at h1
      rw [List.getElem?_set] at h1
      by_cases hq : p = q
      · rw [if_pos hq, if_pos hp] at h1
        cases h1
        subst hq
        obtain ⟨hk, hk'⟩ := List.getElem?_eq_some_iff.mp h2
        rw [List.length_range'] at hk
        rw [List.getElem_range'] at hk'
        right
        refine ⟨by omega, by omega, ?_⟩
        rw [← hk']
        congr 1
        omega
      · rw [if_neg hq] at h1
        exact .inl ⟨.level h1 h2, h.lt (.level h1 h2)⟩
    | @work b n' _ h1 => exact .inl ⟨.work h1, h.lt (.work h1)⟩
  refine ⟨?_, ?_⟩
  · intro i
    show (w.imgs ++ List.replicate n true)[i]? = some true ↔ _
    constructor
    · intro hi
      rcases Nat.lt_or_ge i w.imgs.length with hl | hl
      · rw [List.getElem?_append_left hl] at hi
        obtain ⟨o, ho⟩ := (h.live i).1 hi
        refine ⟨o, ?_⟩
        cases ho with
        | @level q k _ l' h3 h4 =>
          refine .level (l := l') ?_ h4
          simp only [vpNewLevels]
          rw [List.getElem?_set_ne ?_]
          · exact h3
          · intro hq
            subst hq
            rw [e] at h3
            cases h3
            simp at h4
        | work h3 => exact .work h3
      · rw [List.getElem?_append_right hl] at hi
        have hn : i - w.imgs.length < n := by
          have := (List.getElem?_eq_some_iff.mp hi).1
          rwa [List.length_replicate] at this
        refine ⟨.level p (i - w.imgs.length), .level (l := List.range' w.imgs.length n) ?_ ?_⟩
        · simp only [vpNewLevels]
          rw [List.getElem?_set_self hp]
        · rw [List.getElem?_eq_getElem (by rw [List.length_range']; exact hn), List.getElem_range']
          congr 1
          omega
    · rintro ⟨o, ho⟩
      rcases up ho with ⟨h1, h2⟩ | ⟨h1, h2, _⟩
      · rw [List.getElem?_append_left h2]
        exact (h.live i).2 ⟨o, h1⟩
      · rw [List.getElem?_append_right h1, List.getElem?_replicate, if_pos (by omega)]
  · intro i o o' h1 h2
    rcases up h1 with ⟨a, b⟩ | ⟨a, b, c⟩ <;> rcases up h2 with ⟨a', b'⟩ | ⟨a', b', c'⟩
    · exact h.one i o o' a a'
    · omega
    · omega
    · rw [c, c']

/-- A new pyramid. -/
theorem VpOwn.new {w : VpWorld} (h : VpOwn w) : VpOwn (vpNew w) := by
  have iff : ∀ {i o}, VpOwns (vpNew w) i o ↔ VpOwns w i o := by
    intro i o
    constructor
    · intro ho
      cases ho with
      | @level q k _ l' h1 h2 =>
        simp only [vpNew] at h1
        rcases Nat.lt_or_ge q w.pyrs.length with hq | hq
        · rw [List.getElem?_append_left hq] at h1
          exact .level h1 h2
        · rw [List.getElem?_append_right hq] at h1
          have h0 : q - w.pyrs.length = 0 := by
            have := (List.getElem?_eq_some_iff.mp h1).1
            simp at this
            omega
          rw [h0] at h1
          cases h1
          simp at h2
      | work h1 => exact .work h1
    · intro ho
      cases ho with
      | @level q k _ l' h1 h2 =>
        refine .level (l := l') ?_ h2
        simp only [vpNew]
        rw [List.getElem?_append_left (List.getElem?_eq_some_iff.mp h1).1]
        exact h1
      | work h1 => exact .work h1
  refine ⟨fun i => ?_, fun i o o' h1 h2 => h.one i o o' (iff.1 h1) (iff.1 h2)⟩
  exact (h.live i).trans ⟨fun ⟨o, ho⟩ => ⟨o, iff.2 ho⟩, fun ⟨o, ho⟩ => ⟨o, iff.1 ho⟩⟩

/-- A new builder. -/
theorem VpOwn.bldNew {w : VpWorld} (h : VpOwn w) (n : Nat) : VpOwn (vpBldNew w n) := by
  have up : ∀ {i o}, VpOwns (vpBldNew w n) i o → (VpOwns w i o ∧ i < w.imgs.length) ∨ (i = w.imgs.length ∧ o = .work w.blds.length) := by
    intro i o ho
    cases ho with
    | @level q k _ l' h1 h2 => exact .inl ⟨.level h1 h2, h.lt (.level h1 h2)⟩
    | @work b n' _ h1 =>
      simp only [vpBldNew] at h1
      rcases Nat.lt_or_ge b w.blds.length with hb | hb
      · rw [List.getElem?_append_left hb] at h1
        exact .inl ⟨.work h1, h.lt (.work h1)⟩
      · rw [List.getElem?_append_right hb] at h1
        have h0 : b - w.blds.length = 0 := by
          have := (List.getElem?_eq_some_iff.mp h1).1
          simp at this
          omega
        rw [h0] at h1
        cases h1
        right
        refine ⟨rfl, ?_⟩
        congr 1
        omega
  refine ⟨?_, ?_⟩
  · intro i
    show (w.imgs ++ [true])[i]? = some true ↔ _
    constructor
    · intro hi
      rcases Nat.lt_or_ge i w.imgs.length with hl | hl
      · rw [List.getElem?_append_left hl] at hi
        obtain ⟨o, ho⟩ := (h.live i).1 hi
        refine ⟨o, ?_⟩
        cases ho with
        | level h3 h4 => exact .level h3 h4
        | @work b n' _ h3 =>
          refine .work (n := n') ?_
          simp only [vpBldNew]
          rw [List.getElem?_append_left (List.getElem?_eq_some_iff.mp h3).1]
          exact h3
      · have hi' : i = w.imgs.length := by
          have := (List.getElem?_eq_some_iff.mp hi).1
          simp at this
          omega
        subst hi'
        refine ⟨.work w.blds.length, .work (n := n) ?_⟩
        simp [vpBldNew]
    · rintro ⟨o, ho⟩
      rcases up ho with ⟨h1, h2⟩ | ⟨h1, _⟩
      · rw [List.getElem?_append_left h2]
        exact (h.live i).2 ⟨o, h1⟩
      · subst h1
        simp
  · intro i o o' h1 h2
    rcases up h1 with ⟨a, b⟩ | ⟨a, b⟩ <;> rcases up h2 with ⟨a', b'⟩ | ⟨a', b'⟩
    · exact h.one i o o' a a'
    · omega
    · omega
    · rw [b, b']

/-- A builder is freed. -/
theorem VpOwn.bldFree {w : VpWorld} (h : VpOwn w) {b n i : Nat} (e : w.blds[b]? = some (some (n, i))) :
    ∃ m, vpBldFree w b = .ok { w with imgs := m, blds := w.blds.set b none } ∧ VpOwn { w with imgs := m, blds := w.blds.set b none } := by
  obtain ⟨m, em, hm⟩ := vpFreeAll_ok [i] w.imgs (by simp) (by
    intro j hj
    rw [List.mem_singleton.mp hj]
    exact (h.live i).2 ⟨_, .work e⟩)
  have hb : b < w.blds.length := (List.getElem?_eq_some_iff.mp e).1
  refine ⟨m, ?_, ?_⟩
  · unfold vpBldFree
    rw [vpBld_ok.2 e]
    simp only [Res.ok_bind, em, Res.pure_eq]
  have up : ∀ {j o}, VpOwns { w with imgs := m, blds := w.blds.set b none } j o → VpOwns w j o ∧ j ≠ i := by
    intro j o ho
    cases ho with
    | @level q k _ l' h1 h2 =>
      refine ⟨.level h1 h2, fun hi => ?_⟩
      subst hi
      have := h.one j _ _ (.level h1 h2) (.work e)
      cases this
    | @work b' n' _ h1 =>
      simp only at h1
      rw [List.getElem?_set] at h1
      by_cases hq : b = b'
      · rw [if_pos hq, if_pos hb] at h1
        cases h1
      · rw [if_neg hq] at h1
        refine ⟨.work h1, fun hi => ?_⟩
        subst hi
        have := h.one j _ _ (.work h1) (.work e)
        cases this
        exact hq rfl
  refine ⟨?_, ?_⟩
  · intro j
    simp only
    rw [hm]
    constructor
    · rintro ⟨h1, h2⟩
      obtain ⟨o, ho⟩ := (h.live j).1 h1
      refine ⟨o, ?_⟩
      cases ho with
      | level h3 h4 => exact .level h3 h4
      | @work b' n' _ h3 =>
        refine .work (n := n') ?_
        simp only
        rw [List.getElem?_set_ne ?_]
        · exact h3
        · intro hq
          subst hq
          rw [e] at h3
          cases h3
          simp at h2
    · rintro ⟨o, ho⟩
      obtain ⟨h1, h2⟩ := up ho
      exact ⟨(h.live j).2 ⟨o, h1⟩, by simpa using h2⟩
  · intro j o o' h1 h2
    exact h.one j o o' (up h1).1 (up h2).1

theorem VpLive.set_none {α : Type} {objs : List (Option α)} {p q : Nat} : VpLive (objs.set p none) q ↔ VpLive objs q ∧ q ≠ p := by
  unfold VpLive
  rw [List.getElem?_set]
  by_cases h : p = q
  · subst h
    rw [if_pos rfl]
    constructor
    · rintro ⟨x, hx⟩
      split at hx <;> cases hx
    · exact fun h => absurd rfl h.2
  · rw [if_neg h]
    exact ⟨fun hx => ⟨hx, Ne.symm h⟩, fun hx => hx.1⟩

theorem VpLive.set_some {α : Type} {objs : List (Option α)} {p q : Nat} {x : α} (h : VpLive objs p) :
    VpLive (objs.set p (some x)) q ↔ VpLive objs q := by
  unfold VpLive
  rw [List.getElem?_set]
  obtain ⟨y, hy⟩ := h
  by_cases h : p = q
  · subst h
    rw [if_pos rfl, if_pos (List.getElem?_eq_some_iff.mp hy).1]
    exact ⟨fun _ => ⟨y, hy⟩, fun _ => ⟨x, rfl⟩⟩
  · rw [if_neg h]

theorem VpLive.append {α : Type} {objs : List (Option α)} {q : Nat} {x : α} :
    VpLive (objs ++ [some x]) q ↔ VpLive objs q ∨ q = objs.length := by
  unfold VpLive
  rcases Nat.lt_or_ge q objs.length with h | h
  · rw [List.getElem?_append_left h]
    exact ⟨.inl, fun h' => h'.resolve_right (by omega)⟩
  · rw [List.getElem?_append_right h]
    constructor
    · rintro ⟨y, hy⟩
      right
      have := (List.getElem?_eq_some_iff.mp hy).1
      simp at this
      omega
    · rintro (⟨y, hy⟩ | rfl)
      · rw [List.getElem?_eq_none h] at hy
        cases hy
      · exact ⟨x, by simp⟩

/-- A variable gets another value: who holds an object then. -/
theorem VpHeld.set {f : Nat × Nat → Nat} {vars : List (Option (Nat × Nat))} {v : Nat} {old : Nat × Nat} {h : Option (Nat × Nat)}
    (e : vars[v]? = some (some old)) {q : Nat} :
    (VpHeld f vars q ∨ (∃ x, h = some x ∧ f x = q)) ∧ (q ≠ f old ∨ VpHeld f (vars.set v h) (f old)) ↔ VpHeld f (vars.set v h) q := by
  have hv : v < vars.length := (List.getElem?_eq_some_iff.mp e).1
  constructor
  · rintro ⟨h1 | ⟨x, rfl, hx⟩, h2⟩
    · obtain ⟨j, y, hj, hy⟩ := h1
      by_cases hjv : v = j
      · subst hjv
        rw [e] at hj
        cases hj
        rcases h2 with h2 | h2
        · exact absurd hy.symm h2
        · rw [← hy]
          exact h2
      · exact ⟨j, y, by rw [List.getElem?_set_ne hjv]; exact hj, hy⟩
    · exact ⟨v, x, List.getElem?_set_self hv, hx⟩
  · intro hq
    refine ⟨?_, ?_⟩
    · obtain ⟨j, y, hj, hy⟩ := hq
      by_cases hjv : v = j
      · subst hjv
        rw [List.getElem?_set_self hv] at hj
        cases hj
        exact .inr ⟨y, rfl, hy⟩
      · rw [List.getElem?_set_ne hjv] at hj
        exact .inl ⟨j, y, hj, hy⟩
    · by_cases h' : q = f old
      · rw [← h']
        exact .inr hq
      · exact .inl h'

/-- The images of a pyramid that is not freed stay as they are. -/
theorem VpOwn.let_ {w : VpWorld} (h : VpOwn w) {p : Nat} (hp : VpLive w.pyrs p) :
    ∃ w', vpLet w p = .ok w' ∧ VpOwn w' ∧ w'.vars = w.vars ∧ w'.lvls = w.lvls ∧ w'.blds = w.blds ∧ w'.pyrs.length = w.pyrs.length ∧
      (∀ q, VpLive w'.pyrs q ↔ VpLive w.pyrs q ∧ (q ≠ p ∨ VpHeld (·.1) w.vars p)) ∧
      (∀ q, VpHeld (·.1) w.vars q → w'.pyrs[q]? = w.pyrs[q]?) := by
  unfold vpLet
  by_cases hh : VpHeld (·.1) w.vars p
  · rw [if_pos ((vpHolds_iff _ _ _).2 hh)]
    exact ⟨w, rfl, h, rfl, rfl, rfl, rfl, fun q => by simp [hh], fun _ _ => rfl⟩
  · rw [if_neg (fun h' => hh ((vpHolds_iff _ _ _).1 h'))]
    obtain ⟨l, e⟩ := hp
    obtain ⟨m, em, _, ho⟩ := h.freeLevels e (x := none) (.inl rfl)
    refine ⟨{ w with imgs := m, pyrs := w.pyrs.set p none }, ?_, ho, rfl, rfl, rfl, by simp, ?_, ?_⟩
    · unfold vpFree vpFreeLevels
      rw [vpLevels_ok.2 e]
      simp only [Res.ok_bind, em, Res.pure_eq, List.set_set]
    · intro q
      simp only
      rw [VpLive.set_none]
      simp [hh]
    · intro q hq
      have : p ≠ q := fun e => hh (e ▸ hq)
      exact List.getElem?_set_ne this

theorem VpOwn.bldLet {w : VpWorld} (h : VpOwn w) {b : Nat} (hp : VpLive w.blds b) :
    ∃ w', vpBldLet w b = .ok w' ∧ VpOwn w' ∧ w'.vars = w.vars ∧ w'.lvls = w.lvls ∧ w'.pyrs = w.pyrs ∧
      w'.blds.length = w.blds.length ∧ (∀ q, VpLive w'.blds q ↔ VpLive w.blds q ∧ (q ≠ b ∨ VpHeld (·.2) w.vars b)) ∧
      (∀ q, VpHeld (·.2) w.vars q → w'.blds[q]? = w.blds[q]?) := by
  unfold vpBldLet
  by_cases hh : VpHeld (·.2) w.vars b
  · rw [if_pos ((vpHolds_iff _ _ _).2 hh)]
    exact ⟨w, rfl, h, rfl, rfl, rfl, rfl, fun q => by simp [hh], fun _ _ => rfl⟩
  · rw [if_neg (fun h' => hh ((vpHolds_iff _ _ _).1 h'))]
    obtain ⟨⟨n, i⟩, e⟩ := hp
    obtain ⟨m, em, ho⟩ := h.bldFree e
    refine ⟨_, em, ho, rfl, rfl, rfl, by simp, ?_, ?_⟩
    · intro q
      simp only
      rw [VpLive.set_none]
      simp [hh]
    · intro q hq
      have : b ≠ q := fun e => hh (e ▸ hq)
      exact List.getElem?_set_ne this

/-- A variable gets another value, and objects that only the new value holds are there already. -/
theorem VpOwn.put {w : VpWorld} (h : VpOwn w) {v : Nat} {old : Nat × Nat} {x : Option (Nat × Nat)} (e : w.vars[v]? = some (some old))
    (hp : ∀ q, VpLive w.pyrs q ↔ VpHeld (·.1) w.vars q ∨ ∃ y, x = some y ∧ y.1 = q)
    (hb : ∀ q, VpLive w.blds q ↔ VpHeld (·.2) w.vars q ∨ ∃ y, x = some y ∧ y.2 = q) :
    ∃ w', vpPut w v x = .ok w' ∧ VpInv w' ∧ w'.vars = w.vars.set v x ∧ w'.lvls = w.lvls ∧ w'.pyrs.length = w.pyrs.length ∧
      w'.blds.length = w.blds.length ∧ (∀ q, VpHeld (·.1) w'.vars q → w'.pyrs[q]? = w.pyrs[q]?) ∧
      (∀ q, VpHeld (·.2) w'.vars q → w'.blds[q]? = w.blds[q]?) := by
  have ho : VpOwn { w with vars := w.vars.set v x } := by
    have iff : ∀ {i o}, VpOwns { w with vars := w.vars.set v x } i o ↔ VpOwns w i o := by
      intro i o
      constructor <;> intro ho <;> cases ho with
      | level h1 h2 => exact .level h1 h2
      | work h1 => exact .work h1
    exact ⟨fun i => (h.live i).trans ⟨fun ⟨o, ho⟩ => ⟨o, iff.2 ho⟩, fun ⟨o, ho⟩ => ⟨o, iff.1 ho⟩⟩,
      fun i o o' h1 h2 => h.one i o o' (iff.1 h1) (iff.1 h2)⟩
  obtain ⟨w1, e1, o1, v1, l1, b1, n1, p1, k1⟩ := ho.let_ (p := old.1) ((hp _).2 (.inl ⟨v, old, e, rfl⟩))
  obtain ⟨w2, e2, o2, v2, l2, p2, n2, b2, k2⟩ := o1.bldLet (b := old.2) (by rw [b1]; exact (hb _).2 (.inl ⟨v, old, e, rfl⟩))
  refine ⟨w2, ?_, ⟨o2, ?_, ?_⟩, by rw [v2, v1], by rw [l2, l1], by rw [p2, n1], by rw [n2, b1], ?_, ?_⟩
  · unfold vpPut
    rw [vpVar_ok.2 e]
    simp only [Res.ok_bind, e1, e2]
  · intro q
    rw [p2, p1, v2, v1]
    simp only
    rw [hp, VpHeld.set e]
  · intro q
    rw [b2, b1, v2, v1]
    simp only
    rw [hb, VpHeld.set e]
  · intro q hq
    rw [v2, v1] at hq
    rw [p2, k1 q hq]
  · intro q hq
    rw [v2, v1] at hq
    rw [k2 q (by rw [v1]; exact hq), b1]

/-- Images are only added, and a builder that is added has one of them. -/
structure VpGrow (w w' : VpWorld) : Prop where
  len : w.imgs.length ≤ w'.imgs.length
  work : ∀ (b : Nat) (x : Nat × Nat), w'.blds[b]? = some (some x) → w.blds[b]? = some (some x) ∨ w.imgs.length ≤ x.2

theorem VpGrow.rfl' (w : VpWorld) : VpGrow w w := ⟨Nat.le_refl _, fun _ _ h => .inl h⟩

theorem VpGrow.trans {a b c : VpWorld} (h : VpGrow a b) (h' : VpGrow b c) : VpGrow a c := by
  refine ⟨Nat.le_trans h.len h'.len, fun q x hx => ?_⟩
  rcases h'.work q x hx with h1 | h1
  · exact h.work q x h1
  · exact .inr (Nat.le_trans h.len h1)

theorem vpFreeAll_length : ∀ (is : List Nat) (m m' : List Bool), vpFreeAll m is = .ok m' → m'.length = m.length := by
  intro is
  induction is with
  | nil =>
    intro m m' h
    cases h
    rfl
  | cons i is ih =>
    intro m m' h
    unfold vpFreeAll at h
    split at h
    · rw [ih _ _ h, List.length_set]
    · cases h

theorem vpFreeLevels_grow {w w' : VpWorld} {p : Nat} (h : vpFreeLevels w p = .ok w') : VpGrow w w' := by
  unfold vpFreeLevels at h
  simp only [Res.bind_eq_ok, Res.pure_eq, Res.ok.injEq] at h
  obtain ⟨l, _, m, hm, rfl⟩ := h
  exact ⟨by simp only [vpFreeAll_length _ _ _ hm]; exact Nat.le_refl _, fun _ _ h => .inl h⟩

theorem vpLet_grow {w w' : VpWorld} {p : Nat} (h : vpLet w p = .ok w') : VpGrow w w' := by
  unfold vpLet at h
  split at h
  · cases h
    exact .rfl' _
  · unfold vpFree at h
    simp only [Res.bind_eq_ok, Res.pure_eq, Res.ok.injEq] at h
    obtain ⟨u, hu, rfl⟩ := h
    have := vpFreeLevels_grow hu
    exact ⟨this.len, this.work⟩

theorem vpBldLet_grow {w w' : VpWorld} {b : Nat} (h : vpBldLet w b = .ok w') : VpGrow w w' := by
  unfold vpBldLet at h
  split at h
  · cases h
    exact .rfl' _
  · unfold vpBldFree at h
    simp only [Res.bind_eq_ok, Res.pure_eq, Res.ok.injEq] at h
    obtain ⟨x, _, m, hm, rfl⟩ := h
    refine ⟨by simp only [vpFreeAll_length _ _ _ hm]; exact Nat.le_refl _, fun q y hy => .inl ?_⟩
    simp only at hy
    rw [List.getElem?_set] at hy
    split at hy
    · split at hy <;> cases hy
    · exact hy

theorem vpPut_grow {w w' : VpWorld} {v : Nat} {x : Option (Nat × Nat)} (h : vpPut w v x = .ok w') : VpGrow w w' := by
  unfold vpPut at h
  simp only [Res.bind_eq_ok] at h
  obtain ⟨old, _, u, hu, hw⟩ := h
  have h1 := vpLet_grow hu
  exact VpGrow.trans ⟨h1.len, h1.work⟩ (vpBldLet_grow hw)

theorem vpBldNew_grow (w : VpWorld) (n : Nat) : VpGrow w (vpBldNew w n) := by
  refine ⟨by simp [vpBldNew], fun q x hx => ?_⟩
  simp only [vpBldNew] at hx
  rcases Nat.lt_or_ge q w.blds.length with h | h
  · rw [List.getElem?_append_left h] at hx
    exact .inl hx
  · rw [List.getElem?_append_right h] at hx
    have h0 : q - w.blds.length = 0 := by
      have := (List.getElem?_eq_some_iff.mp hx).1
      simp at this
      omega
    rw [h0] at hx
    cases hx
    exact .inr (Nat.le_refl _)

/-- Levels of a pyramid are allocated: those it had if they are as many, new ones otherwise. -/
theorem VpOwn.allocLevels {w : VpWorld} (h : VpOwn w) {p n : Nat} {l : List Nat} (e : w.pyrs[p]? = some (some l)) (hn : n ≠ 0) :
    ∃ w', vpAllocLevels w p n = .ok w' ∧ VpOwn w' ∧ w'.vars = w.vars ∧ w'.lvls = w.lvls ∧ w'.blds = w.blds ∧
      w'.pyrs.length = w.pyrs.length ∧ (∀ q, q ≠ p → w'.pyrs[q]? = w.pyrs[q]?) ∧
      (∃ l', w'.pyrs[p]? = some (some l') ∧ l'.length = n) ∧ (l.length = n → w' = w) ∧ VpGrow w w' := by
  unfold vpAllocLevels
  rw [if_neg hn, vpLevels_ok.2 e]
  simp only [Res.ok_bind]
  by_cases hl : l.length = n
  · rw [if_pos hl]
    exact ⟨w, rfl, h, rfl, rfl, rfl, rfl, fun _ _ => rfl, ⟨l, e, hl⟩, fun _ => rfl, .rfl' _⟩
  · rw [if_neg hl]
    have hp : p < w.pyrs.length := (List.getElem?_eq_some_iff.mp e).1
    obtain ⟨m, em, _, ho⟩ := h.freeLevels e (x := some []) (.inr rfl)
    have ef : vpFreeLevels w p = .ok { w with imgs := m, pyrs := w.pyrs.set p (some []) } := by
      unfold vpFreeLevels
      rw [vpLevels_ok.2 e]
      simp only [Res.ok_bind, em, Res.pure_eq]
    have hg := vpFreeLevels_grow ef
    rw [ef]
    simp only [Res.ok_bind, Res.pure_eq]
    refine ⟨_, rfl, ho.newLevels (by simp only; rw [List.getElem?_set_self hp]) n, rfl, rfl, rfl, by simp [vpNewLevels], ?_, ?_, ?_, ?_⟩
    · intro q hq
      simp only [vpNewLevels]
      rw [List.getElem?_set_ne (Ne.symm hq), List.getElem?_set_ne (Ne.symm hq)]
    · refine ⟨List.range' m.length n, ?_, List.length_range'⟩
      simp only [vpNewLevels, List.set_set]
      rw [List.getElem?_set_self hp]
    · exact fun h' => absurd h' hl
    · refine hg.trans ⟨?_, fun _ _ h => .inl h⟩
      simp [vpNewLevels]

/-- A build that ends has allocated the levels. -/
theorem vpBuild_ok {w w' : VpWorld} {p b : Nat} {src : VpSrc} (h : vpBuild w p b src = .ok w') :
    ∃ x, w.blds[b]? = some (some x) ∧ x.1 ≠ 0 ∧ vpAllocLevels w p x.1 = .ok w' := by
  unfold vpBuild at h
  simp only [Res.bind_eq_ok] at h
  obtain ⟨x, hx, h⟩ := h
  split at h
  · cases h
  · rename_i hn
    simp only [Res.bind_eq_ok, Res.pure_eq, Res.ok.injEq] at h
    obtain ⟨_, _, w1, h1, _, _, _, _, rfl⟩ := h
    exact ⟨x, vpBld_ok.1 hx, hn, h1⟩

theorem vpAllocLevels_live {w w' : VpWorld} {p n : Nat} (h : vpAllocLevels w p n = .ok w') : n ≠ 0 ∧ VpLive w.pyrs p := by
  unfold vpAllocLevels at h
  split at h
  · cases h
  · rename_i hn
    simp only [Res.bind_eq_ok] at h
    obtain ⟨l, hl, _⟩ := h
    exact ⟨hn, l, vpLevels_ok.1 hl⟩

/-- Handles are of images that no builder has. -/
def VpHnd (w : VpWorld) : Prop := ∀ i ∈ w.lvls, i < w.imgs.length ∧ ∀ b, ¬ VpOwns w i (.work b)

theorem VpHnd.grow {w w' : VpWorld} (h : VpHnd w) (hg : VpGrow w w') (hl : w'.lvls = w.lvls) : VpHnd w' := by
  intro i hi
  rw [hl] at hi
  obtain ⟨h1, h2⟩ := h i hi
  refine ⟨Nat.lt_of_lt_of_le h1 hg.len, fun b ho => ?_⟩
  cases ho with
  | work hb =>
    rcases hg.work _ _ hb with h3 | h3
    · exact h2 b (.work h3)
    · simp only at h3
      omega

/-- In each variable the pyramid has as many levels as the builder makes. -/
def VpMatch (w : VpWorld) : Prop := ∀ (v p b : Nat), w.vars[v]? = some (some (p, b)) →
  ∃ l x, w.pyrs[p]? = some (some l) ∧ w.blds[b]? = some (some x) ∧ l.length = x.1

theorem VpHeld.append {f : Nat × Nat → Nat} {vars : List (Option (Nat × Nat))} {h : Nat × Nat} {q : Nat} :
    VpHeld f (vars ++ [some h]) q ↔ VpHeld f vars q ∨ f h = q := by
  constructor
  · rintro ⟨v, y, hv, hy⟩
    rcases Nat.lt_or_ge v vars.length with hl | hl
    · rw [List.getElem?_append_left hl] at hv
      exact .inl ⟨v, y, hv, hy⟩
    · rw [List.getElem?_append_right hl] at hv
      have h0 : v - vars.length = 0 := by
        have := (List.getElem?_eq_some_iff.mp hv).1
        simp at this
        omega
      rw [h0] at hv
      cases hv
      exact .inr hy
  · rintro (⟨v, y, hv, hy⟩ | hy)
    · exact ⟨v, y, by rw [List.getElem?_append_left (List.getElem?_eq_some_iff.mp hv).1]; exact hv, hy⟩
    · exact ⟨vars.length, h, by simp, hy⟩

theorem VpOwn.vars {w : VpWorld} (h : VpOwn w) (vars : List (Option (Nat × Nat))) (lvls : List Nat) :
    VpOwn { w with vars := vars, lvls := lvls } := by
  have iff : ∀ {i o}, VpOwns { w with vars := vars, lvls := lvls } i o ↔ VpOwns w i o := by
    intro i o
    constructor <;> intro ho <;> cases ho with
    | level h1 h2 => exact .level h1 h2
    | work h1 => exact .work h1
  exact ⟨fun i => (h.live i).trans ⟨fun ⟨o, ho⟩ => ⟨o, iff.2 ho⟩, fun ⟨o, ho⟩ => ⟨o, iff.1 ho⟩⟩,
    fun i o o' h1 h2 => h.one i o o' (iff.1 h1) (iff.1 h2)⟩

theorem VpInv.ctor {w : VpWorld} (h : VpInv w) : VpInv (vpCtor w) := by
  have ho : VpOwn (vpBldNew (vpNew w) 0) := h.toVpOwn.new.bldNew 0
  refine ⟨ho.vars _ (vpBldNew (vpNew w) 0).lvls, ?_, ?_⟩
  · intro q
    show VpLive (w.pyrs ++ [some []]) q ↔ VpHeld _ (w.vars ++ [some (w.pyrs.length, w.blds.length)]) q
    rw [VpLive.append, VpHeld.append, h.pyrs]
    simp only [eq_comm]
  · intro q
    show VpLive (w.blds ++ [some (0, w.imgs.length)]) q ↔ VpHeld _ (w.vars ++ [some (w.pyrs.length, w.blds.length)]) q
    rw [VpLive.append, VpHeld.append, h.blds]
    simp only [eq_comm]

theorem vpCtor_grow (w : VpWorld) : VpGrow w (vpCtor w) := by
  have := vpBldNew_grow (vpNew w) 0
  exact ⟨this.len, this.work⟩

theorem getElem?_last {α : Type} (l : List α) (x : α) : (l ++ [x])[l.length]? = some x := by simp

theorem getElem?_before {α : Type} {l : List α} {i : Nat} {y : α} (h : l[i]? = some y) (x : α) : (l ++ [x])[i]? = some y := by
  rw [List.getElem?_append_left (List.getElem?_eq_some_iff.mp h).1]
  exact h

/-- The state when `build_*_from` calls the builder: the builder `b` is in the variable and the new pyramid `p` is not. -/
theorem vpBuildFrom_mid {w : VpWorld} (h : VpInv w) (n : Nat) : ∃ w2, VpInv w2 ∧
    vpPut (vpBldNew (vpCtor w) n) w.vars.length (some (w.pyrs.length, w.blds.length + 1)) = .ok w2 ∧
    w2.vars = w.vars ++ [some (w.pyrs.length, w.blds.length + 1)] ∧ w2.lvls = w.lvls ∧ w2.pyrs.length = w.pyrs.length + 1 ∧
    (∀ q, VpHeld (·.1) w.vars q → w2.pyrs[q]? = w.pyrs[q]?) ∧ (∀ q, VpHeld (·.2) w.vars q → w2.blds[q]? = w.blds[q]?) ∧
    (∃ k, w2.blds[w.blds.length + 1]? = some (some (n, k))) ∧ VpGrow w w2 := by
  have h0 := h.ctor
  have ho : VpOwn (vpBldNew (vpCtor w) n) := h0.toVpOwn.bldNew n
  have hv : (vpBldNew (vpCtor w) n).vars = w.vars ++ [some (w.pyrs.length, w.blds.length)] := rfl
  have hpv : (vpBldNew (vpCtor w) n).pyrs = w.pyrs ++ [some []] := rfl
  have hbv : (vpBldNew (vpCtor w) n).blds = (w.blds ++ [some (0, w.imgs.length)]) ++ [some (n, w.imgs.length + 1)] := by
    simp [vpBldNew, vpCtor, vpNew]
  have e : (vpBldNew (vpCtor w) n).vars[w.vars.length]? = some (some (w.pyrs.length, w.blds.length)) := by
    rw [hv]
    exact getElem?_last _ _
  obtain ⟨w2, e2, i2, v2, l2, n2, m2, k2, kb2⟩ := ho.put (x := some (w.pyrs.length, w.blds.length + 1)) e (by
    intro q
    rw [hpv, hv, VpLive.append, VpHeld.append, h.pyrs]
    constructor
    · rintro (h1 | rfl)
      · exact .inl (.inl h1)
      · exact .inl (.inr rfl)
    · rintro ((h1 | h1) | ⟨y, hy, h1⟩)
      · exact .inl h1
      · exact .inr h1.symm
      · cases hy
        exact .inr h1.symm) (by
    intro q
    rw [hbv, hv, VpLive.append, VpLive.append, VpHeld.append, h.blds]
    simp only [List.length_append, List.length_singleton]
    constructor
    · rintro ((h1 | rfl) | rfl)
      · exact .inl (.inl h1)
      · exact .inl (.inr rfl)
      · exact .inr ⟨_, rfl, rfl⟩
    · rintro ((h1 | h1) | ⟨y, hy, h1⟩)
      · exact .inl (.inl h1)
      · exact .inl (.inr h1.symm)
      · cases hy
        exact .inr h1.symm)
  have v2' : w2.vars = w.vars ++ [some (w.pyrs.length, w.blds.length + 1)] := by
    rw [v2, hv]
    simp
  refine ⟨w2, i2, e2, v2', l2, by rw [n2, hpv]; simp, ?_, ?_, ?_, ?_⟩
  · intro q hq
    rw [k2 q (by rw [v2', VpHeld.append]; exact .inl hq), hpv, List.getElem?_append_left]
    obtain ⟨y, hy⟩ := (h.pyrs q).2 hq
    exact (List.getElem?_eq_some_iff.mp hy).1
  · intro q hq
    obtain ⟨y, hy⟩ := (h.blds q).2 hq
    rw [kb2 q (by rw [v2', VpHeld.append]; exact .inl hq), hbv]
    rw [getElem?_before (getElem?_before hy _) _, hy]
  · refine ⟨w.imgs.length + 1, ?_⟩
    rw [kb2 _ (by rw [v2', VpHeld.append]; exact .inr rfl), hbv]
    have := getElem?_last (w.blds ++ [some (0, w.imgs.length)]) (some (n, w.imgs.length + 1))
    rw [List.length_append, List.length_singleton] at this
    exact this
  · exact ((vpCtor_grow w).trans (vpBldNew_grow _ n)).trans (vpPut_grow e2)

theorem vpBuildFrom_eq {w w2 : VpWorld} {n : Nat} (src : VpSrc) (hn : n ≠ 0)
    (e2 : vpPut (vpBldNew (vpCtor w) n) w.vars.length (some (w.pyrs.length, w.blds.length + 1)) = .ok w2)
    (hl : w2.pyrs.length = w.pyrs.length + 1) :
    vpBuildFrom w n src = (vpBuild (vpNew w2) (w.pyrs.length + 1) (w.blds.length + 1) src >>= fun w' =>
      vpPut w' w.vars.length (some (w.pyrs.length + 1, w.blds.length + 1))) := by
  unfold vpBuildFrom
  rw [if_neg hn]
  simp only
  have e : vpVar (vpBldNew (vpCtor w) n) w.vars.length = .ok (w.pyrs.length, w.blds.length) := by
    rw [vpVar_ok]
    exact getElem?_last _ _
  have hb : (vpBldNew (vpCtor w) n).blds.length - 1 = w.blds.length + 1 := by
    simp [vpBldNew, vpCtor, vpNew]
  rw [e, Res.ok_bind]
  simp only
  rw [hb, e2, Res.ok_bind]
  have hp : (vpNew w2).pyrs.length - 1 = w.pyrs.length + 1 := by
    simp [vpNew, hl]
  rw [hp]

/-- `build_*_from`: what is known of the result. -/
theorem VpInv.buildFrom {w : VpWorld} (h : VpInv w) {n : Nat} {src : VpSrc} {w' : VpWorld} (e : vpBuildFrom w n src = .ok w') :
    VpInv w' ∧ w'.vars = w.vars ++ [some (w.pyrs.length + 1, w.blds.length + 1)] ∧ w'.lvls = w.lvls ∧ VpGrow w w' ∧
      (∀ q, VpHeld (·.1) w.vars q → w'.pyrs[q]? = w.pyrs[q]?) ∧ (∀ q, VpHeld (·.2) w.vars q → w'.blds[q]? = w.blds[q]?) ∧
      (∃ l k, w'.pyrs[w.pyrs.length + 1]? = some (some l) ∧ l.length = n ∧ w'.blds[w.blds.length + 1]? = some (some (n, k))) := by
  have hn : n ≠ 0 := by
    intro hn
    unfold vpBuildFrom at e
    rw [if_pos hn] at e
    cases e
  obtain ⟨w2, i2, e2, v2, l2, n2, k2, kb2, ⟨k, hk⟩, g2⟩ := vpBuildFrom_mid h n
  rw [vpBuildFrom_eq src hn e2 n2, Res.bind_eq_ok] at e
  obtain ⟨w4, e4, e5⟩ := e
  obtain ⟨x, hx, _, ea⟩ := vpBuild_ok e4
  have hx' : x = (n, k) := by
    have : (vpNew w2).blds = w2.blds := rfl
    rw [this, hk] at hx
    cases hx
    rfl
  subst hx'
  have hp3 : (vpNew w2).pyrs[w.pyrs.length + 1]? = some (some []) := by
    rw [← n2]
    exact getElem?_last _ _
  obtain ⟨w4', ea', o4, v4, l4, b4, n4, k4, ⟨l, hl, hln⟩, _, g4⟩ := i2.toVpOwn.new.allocLevels hp3 hn
  simp only at ea
  rw [ea] at ea'
  cases ea'
  have v4' : w4.vars = w.vars ++ [some (w.pyrs.length, w.blds.length + 1)] := by
    rw [v4]
    exact v2
  have ev : w4.vars[w.vars.length]? = some (some (w.pyrs.length, w.blds.length + 1)) := by
    rw [v4']
    exact getElem?_last _ _
  have b4' : w4.blds = w2.blds := b4
  obtain ⟨w5, e5', i5, v5, l5, _, _, k5, kb5⟩ := o4.put (x := some (w.pyrs.length + 1, w.blds.length + 1)) ev (by
    intro q
    have hq : VpLive w4.pyrs q ↔ VpLive (vpNew w2).pyrs q := by
      by_cases hq : q = w.pyrs.length + 1
      · subst hq
        exact ⟨fun _ => ⟨_, hp3⟩, fun _ => ⟨_, hl⟩⟩
      · unfold VpLive
        rw [k4 q hq]
    rw [hq]
    show VpLive (w2.pyrs ++ [some []]) q ↔ _
    rw [VpLive.append, i2.pyrs, v4', v2, n2]
    constructor
    · rintro (h1 | rfl)
      · exact .inl h1
      · exact .inr ⟨_, rfl, rfl⟩
    · rintro (h1 | ⟨y, hy, h1⟩)
      · exact .inl h1
      · cases hy
        exact .inr h1.symm) (by
    intro q
    rw [b4', i2.blds, v4', v2]
    constructor
    · exact .inl
    · rintro (h1 | ⟨y, hy, h1⟩)
      · exact h1
      · cases hy
        rw [VpHeld.append]
        exact .inr h1)
  rw [e5'] at e5
  cases e5
  have v5' : w'.vars = w.vars ++ [some (w.pyrs.length + 1, w.blds.length + 1)] := by
    rw [v5, v4']
    simp
  refine ⟨i5, v5', by rw [l5, l4]; exact l2, ?_, ?_, ?_, ?_⟩
  · have g3 : VpGrow w2 (vpNew w2) := ⟨Nat.le_refl _, fun _ _ h => .inl h⟩
    exact ((g2.trans g3).trans g4).trans (vpPut_grow e5')
  · intro q hq
    obtain ⟨y, hy⟩ := (h.pyrs q).2 hq
    have hlt := (List.getElem?_eq_some_iff.mp hy).1
    rw [k5 q (by rw [v5', VpHeld.append]; exact .inl hq), k4 q (by omega)]
    show (w2.pyrs ++ [some []])[q]? = _
    rw [List.getElem?_append_left (by omega), k2 q hq]
  · intro q hq
    rw [kb5 q (by rw [v5', VpHeld.append]; exact .inl hq), b4', kb2 q hq]
  · refine ⟨l, k, ?_, hln, ?_⟩
    · rw [k5 _ (by rw [v5', VpHeld.append]; exact .inr rfl), hl]
    · rw [kb5 _ (by rw [v5', VpHeld.append]; exact .inr rfl), b4', hk]

/-- Levels allocated again, of a pyramid in a variable. -/
theorem VpInv.allocLevels {w w' : VpWorld} (h : VpInv w) {p n : Nat} (e : vpAllocLevels w p n = .ok w') :
    VpInv w' ∧ w'.vars = w.vars ∧ w'.lvls = w.lvls ∧ VpGrow w w' := by
  obtain ⟨hn, l, hl⟩ := vpAllocLevels_live e
  obtain ⟨u, eu, o, v, lv, b, _, k, ⟨l', hl', _⟩, _, g⟩ := h.toVpOwn.allocLevels hl hn
  rw [e] at eu
  cases eu
  refine ⟨⟨o, ?_, ?_⟩, v, lv, g⟩
  · intro q
    rw [v, ← h.pyrs]
    by_cases hq : q = p
    · subst hq
      exact ⟨fun _ => ⟨l, hl⟩, fun _ => ⟨l', hl'⟩⟩
    · unfold VpLive
      rw [k q hq]
  · intro q
    rw [v, b, ← h.blds]

/-- C140. Every call keeps the state in order: images are allocated exactly if they belong to one pyramid or builder, and those exactly
if a variable holds them; handles are of images that were levels. -/
theorem c140_step {w w' : VpWorld} (h : VpInv w) (hh : VpHnd w) {op : VpOp} (e : vpStep w op = .ok w') : VpInv w' ∧ VpHnd w' := by
  cases op with
  | ctor =>
    cases e
    exact ⟨h.ctor, hh.grow (vpCtor_grow w) rfl⟩
  | build n src =>
    obtain ⟨h1, _, h3, h4, _⟩ := h.buildFrom (show vpBuildFrom w n src = .ok w' from e)
    exact ⟨h1, hh.grow h4 h3⟩
  | copy s =>
    simp only [vpStep, Res.bind_eq_ok, Res.pure_eq, Res.ok.injEq] at e
    obtain ⟨x, hx, rfl⟩ := e
    have hx := vpVar_ok.1 hx
    refine ⟨⟨h.toVpOwn.vars _ w.lvls, ?_, ?_⟩, hh.grow ⟨Nat.le_refl _, fun _ _ h => .inl h⟩ rfl⟩
    · intro q
      simp only
      rw [VpHeld.append, h.pyrs]
      exact ⟨.inl, fun h => h.elim id fun h => ⟨s, x, hx, h⟩⟩
    · intro q
      simp only
      rw [VpHeld.append, h.blds]
      exact ⟨.inl, fun h => h.elim id fun h => ⟨s, x, hx, h⟩⟩
  | assign v s =>
    simp only [vpStep, Res.bind_eq_ok] at e
    obtain ⟨x, hx, e⟩ := e
    have hx := vpVar_ok.1 hx
    have ho := e
    unfold vpPut at ho
    simp only [Res.bind_eq_ok] at ho
    obtain ⟨old, hold, _⟩ := ho
    obtain ⟨u, eu, i, _, l, _⟩ := h.toVpOwn.put (x := some x) (vpVar_ok.1 hold) (by
      intro q
      rw [h.pyrs]
      refine ⟨.inl, fun h => h.elim id ?_⟩
      rintro ⟨y, hy, h⟩
      cases hy
      exact ⟨s, x, hx, h⟩) (by
      intro q
      rw [h.blds]
      refine ⟨.inl, fun h => h.elim id ?_⟩
      rintro ⟨y, hy, h⟩
      cases hy
      exact ⟨s, x, hx, h⟩)
    rw [e] at eu
    cases eu
    exact ⟨i, hh.grow (vpPut_grow e) l⟩
  | drop v =>
    replace e : vpPut w v none = .ok w' := e
    have ho := e
    unfold vpPut at ho
    simp only [Res.bind_eq_ok] at ho
    obtain ⟨old, hold, _⟩ := ho
    obtain ⟨u, eu, i, _, l, _⟩ := h.toVpOwn.put (x := none) (vpVar_ok.1 hold) (by
      intro q
      rw [h.pyrs]
      exact ⟨.inl, fun h => h.elim id fun ⟨_, hy, _⟩ => by cases hy⟩) (by
      intro q
      rw [h.blds]
      exact ⟨.inl, fun h => h.elim id fun ⟨_, hy, _⟩ => by cases hy⟩)
    rw [e] at eu
    cases eu
    exact ⟨i, hh.grow (vpPut_grow e) l⟩
  | rebuild v =>
    simp only [vpStep, Res.bind_eq_ok, Res.pure_eq, Res.ok.injEq] at e
    obtain ⟨_, _, _, _, rfl⟩ := e
    exact ⟨h, hh⟩
  | rebuildFrom v src =>
    simp only [vpStep, Res.bind_eq_ok] at e
    obtain ⟨x, _, e⟩ := e
    obtain ⟨y, _, _, e⟩ := vpBuild_ok e
    obtain ⟨i, _, l, g⟩ := h.allocLevels e
    exact ⟨i, hh.grow g l⟩
  | level v j =>
    simp only [vpStep, Res.bind_eq_ok] at e
    obtain ⟨x, _, ls, hls, e⟩ := e
    split at e
    · simp only [Res.bind_eq_ok, Res.pure_eq, Res.ok.injEq] at e
      obtain ⟨k, hk, rfl⟩ := e
      refine ⟨⟨h.toVpOwn.vars _ _, h.pyrs, h.blds⟩, ?_⟩
      have hk : ls[j.toNat]? = some k := by
        unfold readAt at hk
        split at hk
        · cases hk
          assumption
        · cases hk
      have ho : VpOwns w k (.level x.1 j.toNat) := .level (vpLevels_ok.1 hls) hk
      intro i hi
      rcases List.mem_append.mp hi with hi | hi
      · obtain ⟨h1, h2⟩ := hh i hi
        refine ⟨h1, fun b hb => h2 b ?_⟩
        cases hb with
        | work h3 => exact .work h3
      · rw [List.mem_singleton] at hi
        subst hi
        refine ⟨h.toVpOwn.lt ho, fun b hb => ?_⟩
        have hb' : VpOwns w i (.work b) := by
          cases hb with
          | work h3 => exact .work h3
        have := h.one _ _ _ ho hb'
        cases this
    · cases e
  | use l =>
    simp only [vpStep, Res.bind_eq_ok, Res.pure_eq, Res.ok.injEq] at e
    obtain ⟨_, _, rfl⟩ := e
    exact ⟨h, hh⟩
  | allocLevels v n =>
    simp only [vpStep, Res.bind_eq_ok] at e
    obtain ⟨x, _, e⟩ := e
    obtain ⟨i, _, l, g⟩ := h.allocLevels e
    exact ⟨i, hh.grow g l⟩

theorem vpStart_inv : VpInv vpStart ∧ VpHnd vpStart := by
  refine ⟨⟨⟨fun i => ⟨fun h => by simp [vpStart] at h, ?_⟩, ?_⟩, fun p => ?_, fun b => ?_⟩, fun i hi => by simp [vpStart] at hi⟩
  · rintro ⟨o, ho⟩
    cases ho with
    | level h _ => simp [vpStart] at h
    | work h => simp [vpStart] at h
  · intro i o o' ho _
    cases ho with
    | level h _ => simp [vpStart] at h
    | work h => simp [vpStart] at h
  · simp [VpLive, VpHeld, vpStart]
  · simp [VpLive, VpHeld, vpStart]

/-- C140. So does every program. -/
theorem c140_run : ∀ (ops : List VpOp) {w w' : VpWorld}, VpInv w → VpHnd w → vpRun w ops = .ok w' → VpInv w' ∧ VpHnd w' := by
  intro ops
  induction ops with
  | nil =>
    intro w w' h hh e
    cases e
    exact ⟨h, hh⟩
  | cons o os ih =>
    intro w w' h hh e
    simp only [vpRun, Res.bind_eq_ok] at e
    obtain ⟨u, eu, e⟩ := e
    obtain ⟨h1, h2⟩ := c140_step h hh eu
    exact ih h1 h2 e

/-- C140. After any program that destroys all of its variables nothing is allocated: no image, no pyramid, no builder. -/
theorem c140_no_leak {ops : List VpOp} {w : VpWorld} (e : vpRun vpStart ops = .ok w) (hv : ∀ v ∈ w.vars, v = none) :
    (∀ i : Nat, w.imgs[i]? ≠ some true) ∧ (∀ p, ¬ VpLive w.pyrs p) ∧ ∀ b, ¬ VpLive w.blds b := by
  obtain ⟨h, _⟩ := c140_run ops vpStart_inv.1 vpStart_inv.2 e
  have no : ∀ f q, ¬ VpHeld f w.vars q := by
    rintro f q ⟨v, x, hx, _⟩
    cases hv _ (List.mem_of_getElem? hx)
  have hp : ∀ p, ¬ VpLive w.pyrs p := fun p hp => no _ _ ((h.pyrs p).1 hp)
  have hb : ∀ b, ¬ VpLive w.blds b := fun b hb => no _ _ ((h.blds b).1 hb)
  refine ⟨fun i hi => ?_, hp, hb⟩
  obtain ⟨o, ho⟩ := (h.live i).1 hi
  cases ho with
  | level h1 _ => exact hp _ ⟨_, h1⟩
  | work h1 => exact hb _ ⟨_, h1⟩

/-- The image of a handle is a level of the pyramid of a variable. -/
def VpUsable (w : VpWorld) (i : Nat) : Prop :=
  ∃ (v : Nat) (h : Nat × Nat) (l : List Nat), w.vars[v]? = some (some h) ∧ w.pyrs[h.1]? = some (some l) ∧ i ∈ l

theorem VpUsable.live {w : VpWorld} (h : VpOwn w) {i : Nat} (hu : VpUsable w i) : w.imgs[i]? = some true := by
  obtain ⟨v, x, l, _, hl, hi⟩ := hu
  exact h.levels_live hl i hi

/-- C140. In any state of a program a handle of a level can be used exactly if the image still is a level of the pyramid of some
variable. -/
theorem c140_handle {ops : List VpOp} {w : VpWorld} (e : vpRun vpStart ops = .ok w) {l i : Nat} (hl : w.lvls[l]? = some i) :
    (vpStep w (.use l) = .ok w ∧ VpUsable w i) ∨ (vpStep w (.use l) = .ub ∧ ¬ VpUsable w i) := by
  obtain ⟨h, hh⟩ := c140_run ops vpStart_inv.1 vpStart_inv.2 e
  simp only [vpStep, vpSrc]
  rw [readAt_some hl]
  simp only [Res.ok_bind]
  rcases vpTouch_cases w i with ht | ht
  · left
    refine ⟨by rw [ht]; rfl, ?_⟩
    obtain ⟨o, ho⟩ := (h.live i).1 (vpTouch_ok.1 ht)
    cases ho with
    | @level p k _ ls h1 h2 =>
      obtain ⟨v, x, hx, hp⟩ := (h.pyrs p).1 ⟨_, h1⟩
      simp only at hp
      exact ⟨v, x, ls, hx, by rw [hp]; exact h1, List.mem_of_getElem? h2⟩
    | work h1 => exact absurd (.work h1) ((hh i (List.mem_of_getElem? hl)).2 _)
  · right
    refine ⟨by rw [ht]; rfl, fun hu => ?_⟩
    rw [vpTouch_ok.2 (hu.live h.toVpOwn)] at ht
    cases ht

theorem vpTouchAll_ok {w : VpWorld} : ∀ {is : List Nat}, (∀ i ∈ is, w.imgs[i]? = some true) → vpTouchAll w is = .ok () := by
  intro is
  induction is with
  | nil => exact fun _ => rfl
  | cons i is ih =>
    intro h
    unfold vpTouchAll
    rw [vpTouch_ok.2 (h i (by simp)), Res.ok_bind]
    exact ih fun j hj => h j (by simp [hj])

theorem vpUpdate_cases {w : VpWorld} (h : VpOwn w) {p b : Nat} (hp : VpLive w.pyrs p) (hb : VpLive w.blds b) :
    vpUpdate w p b = .ok () ∨ vpUpdate w p b = .fatal := by
  obtain ⟨l, hl⟩ := hp
  obtain ⟨⟨n, k⟩, hx⟩ := hb
  unfold vpUpdate
  rw [vpBld_ok.2 hx]
  simp only [Res.ok_bind]
  split
  · exact .inr rfl
  · rw [vpLevels_ok.2 hl]
    simp only [Res.ok_bind]
    split
    · exact .inr rfl
    · left
      refine vpTouchAll_ok ?_
      intro i hi
      rcases List.mem_cons.mp hi with rfl | hi
      · exact (h.live _).2 ⟨_, .work hx⟩
      · exact h.levels_live hl i hi

/-- A given image can be used. -/
def VpSrcOk (w : VpWorld) : VpSrc → Prop
  | .other => True
  | .lvl l => ∃ i, w.lvls[l]? = some i ∧ VpUsable w i

/-- It is not a level that is freed first, as the pyramid gets another number of levels. -/
def VpSrcKept (w : VpWorld) (p b : Nat) : VpSrc → Prop
  | .other => True
  | .lvl l => ∀ (i : Nat) (ls : List Nat) (x : Nat × Nat), w.lvls[l]? = some i → w.pyrs[p]? = some (some ls) →
      w.blds[b]? = some (some x) → i ∈ ls → ls.length = x.1

theorem vpSrc_ok {w : VpWorld} (h : VpOwn w) {src : VpSrc} (hs : VpSrcOk w src) : vpSrc w src = .ok () := by
  cases src with
  | other => rfl
  | lvl l =>
    obtain ⟨i, hi, hu⟩ := hs
    simp only [vpSrc]
    rw [readAt_some hi, Res.ok_bind]
    exact vpTouch_ok.2 (hu.live h)

theorem vpBuild_cases {w : VpWorld} (h : VpOwn w) {p b : Nat} {src : VpSrc} (hp : VpLive w.pyrs p) (hb : VpLive w.blds b)
    (hs : VpSrcOk w src) (hk : VpSrcKept w p b src) : (∃ w', vpBuild w p b src = .ok w') ∨ vpBuild w p b src = .fatal := by
  obtain ⟨ls, hls⟩ := hp
  obtain ⟨x, hx⟩ := hb
  unfold vpBuild
  rw [vpBld_ok.2 hx]
  simp only [Res.ok_bind]
  split
  · exact .inr rfl
  rename_i hn
  rw [vpSrc_ok h hs, Res.ok_bind]
  obtain ⟨w1, e1, o1, v1, l1, b1, _, k1, ⟨l', hl', _⟩, same, _⟩ := h.allocLevels hls hn
  rw [e1, Res.ok_bind]
  have hs1 : vpSrc w1 src = .ok () := by
    by_cases hl : ls.length = x.1
    · rw [same hl]
      exact vpSrc_ok h hs
    · refine vpSrc_ok o1 ?_
      cases src with
      | other => trivial
      | lvl l =>
        obtain ⟨i, hi, v, y, ys, hv, hy, hm⟩ := hs
        refine ⟨i, by rw [l1]; exact hi, v, y, ys, by rw [v1]; exact hv, ?_, hm⟩
        rw [k1 y.1 ?_]
        · exact hy
        · intro e
          rw [e, hls] at hy
          cases hy
          exact hl (hk i _ x hi hls hx hm)
  rw [hs1, Res.ok_bind]
  rcases vpUpdate_cases o1 (p := p) (b := b) ⟨l', hl'⟩ ⟨x, by rw [b1]; exact hx⟩ with e | e
  · rw [e]
    exact .inl ⟨w1, rfl⟩
  · rw [e]
    exact .inr rfl

/-- Calls with variables that exist, levels that exist and images that can be used. -/
def VpLegal (w : VpWorld) : VpOp → Prop
  | .ctor => True
  | .build _ src => VpSrcOk w src
  | .copy s => VpLive w.vars s
  | .assign v s => VpLive w.vars v ∧ VpLive w.vars s
  | .drop v => VpLive w.vars v
  | .rebuild v => VpLive w.vars v
  | .rebuildFrom v src => ∃ h, w.vars[v]? = some (some h) ∧ VpSrcOk w src ∧ VpSrcKept w h.1 h.2 src
  | .level v i => ∃ h l, w.vars[v]? = some (some h) ∧ w.pyrs[h.1]? = some (some l) ∧ 0 ≤ i ∧ i.toNat < l.length
  | .use l => VpSrcOk w (.lvl l)
  | .allocLevels v _ => VpLive w.vars v

/-- C140. Such calls use only memory that is allocated: they are done, or refused by an assertion. -/
theorem c140_safe {w : VpWorld} (h : VpInv w) {op : VpOp} (hl : VpLegal w op) :
    (∃ w', vpStep w op = .ok w') ∨ vpStep w op = .fatal := by
  have held1 : ∀ {v : Nat} {x : Nat × Nat}, w.vars[v]? = some (some x) → VpLive w.pyrs x.1 := fun hv => (h.pyrs _).2 ⟨_, _, hv, rfl⟩
  have held2 : ∀ {v : Nat} {x : Nat × Nat}, w.vars[v]? = some (some x) → VpLive w.blds x.2 := fun hv => (h.blds _).2 ⟨_, _, hv, rfl⟩
  cases op with
  | ctor => exact .inl ⟨_, rfl⟩
  | build n src =>
    show (∃ w', vpBuildFrom w n src = .ok w') ∨ vpBuildFrom w n src = .fatal
    by_cases hn : n = 0
    · right
      unfold vpBuildFrom
      rw [if_pos hn]
    obtain ⟨w2, i2, e2, v2, l2, n2, k2, kb2, ⟨k, hk⟩, _⟩ := vpBuildFrom_mid h n
    rw [vpBuildFrom_eq src hn e2 n2]
    have hp3 : (vpNew w2).pyrs[w.pyrs.length + 1]? = some (some []) := by
      rw [← n2]
      exact getElem?_last _ _
    have hs : VpSrcOk (vpNew w2) src := by
      cases src with
      | other => trivial
      | lvl l =>
        obtain ⟨i, hi, v, y, ys, hv, hy, hm⟩ := hl
        refine ⟨i, ?_, v, y, ys, ?_, ?_, hm⟩
        · show w2.lvls[l]? = _
          rw [l2]
          exact hi
        · show w2.vars[v]? = _
          rw [v2]
          exact getElem?_before hv _
        · show (w2.pyrs ++ [some []])[y.1]? = _
          refine getElem?_before ?_ _
          rw [k2 y.1 ⟨v, y, hv, rfl⟩]
          exact hy
    rcases vpBuild_cases i2.toVpOwn.new (src := src) ⟨_, hp3⟩ ⟨(n, k), hk⟩ hs (by
      cases src with
      | other => trivial
      | lvl l =>
        intro i ls x _ h2 _ h4
        rw [hp3] at h2
        cases h2
        simp at h4) with ⟨w4, e4⟩ | e4
    · rw [e4, Res.ok_bind]
      obtain ⟨x, hx, _, ea⟩ := vpBuild_ok e4
      obtain ⟨w4', ea', o4, v4, _, b4, _, k4, ⟨l, hl, _⟩, _, _⟩ := i2.toVpOwn.new.allocLevels hp3 (n := x.1) (by assumption)
      rw [ea] at ea'
      cases ea'
      have v4' : w4.vars = w.vars ++ [some (w.pyrs.length, w.blds.length + 1)] := by
        rw [v4]
        exact v2
      have b4' : w4.blds = w2.blds := b4
      obtain ⟨w5, e5, _⟩ := o4.put (v := w.vars.length) (old := (w.pyrs.length, w.blds.length + 1))
        (x := some (w.pyrs.length + 1, w.blds.length + 1)) (by rw [v4']; exact getElem?_last _ _) (by
        intro q
        have hq : VpLive w4.pyrs q ↔ VpLive (vpNew w2).pyrs q := by
          by_cases hq : q = w.pyrs.length + 1
          · subst hq
            exact ⟨fun _ => ⟨_, hp3⟩, fun _ => ⟨_, hl⟩⟩
          · unfold VpLive
            rw [k4 q hq]
        rw [hq]
        show VpLive (w2.pyrs ++ [some []]) q ↔ _
        rw [VpLive.append, i2.pyrs, v4', v2, n2]
        constructor
        · rintro (h1 | rfl)
          · exact .inl h1
          · exact .inr ⟨_, rfl, rfl⟩
        · rintro (h1 | ⟨y, hy, h1⟩)
          · exact .inl h1
          · cases hy
            exact .inr h1.symm) (by
        intro q
        rw [b4', i2.blds, v4', v2]
        constructor
        · exact .inl
        · rintro (h1 | ⟨y, hy, h1⟩)
          · exact h1
          · cases hy
            rw [VpHeld.append]
            exact .inr h1)
      exact .inl ⟨w5, e5⟩
    · rw [e4]
      exact .inr rfl
  | copy s =>
    obtain ⟨x, hx⟩ := hl
    left
    simp only [vpStep]
    rw [vpVar_ok.2 hx]
    exact ⟨_, rfl⟩
  | assign v s =>
    obtain ⟨⟨y, hy⟩, x, hx⟩ := hl
    left
    simp only [vpStep]
    rw [vpVar_ok.2 hx, Res.ok_bind]
    obtain ⟨u, eu, _⟩ := h.toVpOwn.put (x := some x) hy (by
      intro q
      rw [h.pyrs]
      refine ⟨.inl, fun h => h.elim id ?_⟩
      rintro ⟨y, hy, h⟩
      cases hy
      exact ⟨s, x, hx, h⟩) (by
      intro q
      rw [h.blds]
      refine ⟨.inl, fun h => h.elim id ?_⟩
      rintro ⟨y, hy, h⟩
      cases hy
      exact ⟨s, x, hx, h⟩)
    exact ⟨u, eu⟩
  | drop v =>
    obtain ⟨y, hy⟩ := hl
    left
    obtain ⟨u, eu, _⟩ := h.toVpOwn.put (x := none) hy (by
      intro q
      rw [h.pyrs]
      exact ⟨.inl, fun h => h.elim id fun ⟨_, hy, _⟩ => by cases hy⟩) (by
      intro q
      rw [h.blds]
      exact ⟨.inl, fun h => h.elim id fun ⟨_, hy, _⟩ => by cases hy⟩)
    exact ⟨u, eu⟩
  | rebuild v =>
    obtain ⟨x, hx⟩ := hl
    simp only [vpStep]
    rw [vpVar_ok.2 hx, Res.ok_bind]
    rcases vpUpdate_cases h.toVpOwn (held1 hx) (held2 hx) with e | e
    · rw [e]
      exact .inl ⟨w, rfl⟩
    · rw [e]
      exact .inr rfl
  | rebuildFrom v src =>
    obtain ⟨x, hx, hs, hk⟩ := hl
    simp only [vpStep]
    rw [vpVar_ok.2 hx, Res.ok_bind]
    exact vpBuild_cases h.toVpOwn (held1 hx) (held2 hx) hs hk
  | level v i =>
    obtain ⟨x, l, hx, hl, h0, h1⟩ := hl
    left
    simp only [vpStep]
    rw [vpVar_ok.2 hx, Res.ok_bind, vpLevels_ok.2 hl, Res.ok_bind, if_pos h0, readAt_ok h1]
    exact ⟨_, rfl⟩
  | use l =>
    left
    simp only [vpStep]
    rw [vpSrc_ok h.toVpOwn (src := .lvl l) hl]
    exact ⟨w, rfl⟩
  | allocLevels v n =>
    obtain ⟨x, hx⟩ := hl
    simp only [vpStep]
    rw [vpVar_ok.2 hx, Res.ok_bind]
    obtain ⟨l, hl⟩ := held1 hx
    by_cases hn : n = 0
    · right
      unfold vpAllocLevels
      rw [if_pos hn]
    · obtain ⟨u, eu, _⟩ := h.toVpOwn.allocLevels hl hn
      exact .inl ⟨u, eu⟩

/-- Calls other than that of `nx_image_pyr_alloc_levels`. -/
def VpOp.Plain : VpOp → Prop
  | .allocLevels _ _ => False
  | _ => True

theorem VpMatch.rebuildFrom {w w' : VpWorld} (h : VpInv w) (hm : VpMatch w) {v : Nat} {src : VpSrc}
    (e : vpStep w (.rebuildFrom v src) = .ok w') : w' = w := by
  simp only [vpStep, Res.bind_eq_ok] at e
  obtain ⟨x, hx, e⟩ := e
  obtain ⟨y, hy, hn, e⟩ := vpBuild_ok e
  obtain ⟨l, z, hl, hz, hlen⟩ := hm v x.1 x.2 (vpVar_ok.1 hx)
  rw [hy] at hz
  cases hz
  obtain ⟨u, eu, _, _, _, _, _, _, _, same, _⟩ := h.toVpOwn.allocLevels hl hn
  rw [e] at eu
  cases eu
  exact same hlen

theorem VpMatch.put {w w' : VpWorld} (hm : VpMatch w) {v : Nat} {x : Option (Nat × Nat)} (hv : w'.vars = w.vars.set v x)
    (hx : ∀ y, x = some y → ∃ s : Nat, w.vars[s]? = some (some y))
    (kp : ∀ q, VpHeld (·.1) w'.vars q → w'.pyrs[q]? = w.pyrs[q]?) (kb : ∀ q, VpHeld (·.2) w'.vars q → w'.blds[q]? = w.blds[q]?) :
    VpMatch w' := by
  intro j p b hj
  have hs : ∃ s : Nat, w.vars[s]? = some (some (p, b)) := by
    have hj' := hj
    rw [hv, List.getElem?_set] at hj'
    split at hj'
    · split at hj'
      · exact hx _ (Option.some.inj hj')
      · cases hj'
    · exact ⟨j, hj'⟩
  obtain ⟨s, hs⟩ := hs
  obtain ⟨l, z, hl, hz, hlen⟩ := hm s p b hs
  exact ⟨l, z, by rw [kp p ⟨j, _, hj, rfl⟩]; exact hl, by rw [kb b ⟨j, _, hj, rfl⟩]; exact hz, hlen⟩

theorem VpMatch.step {w w' : VpWorld} (h : VpInv w) (hm : VpMatch w) {op : VpOp} (hp : op.Plain) (e : vpStep w op = .ok w') :
    VpMatch w' := by
  cases op with
  | ctor =>
    cases e
    intro v p b hv
    replace hv : (w.vars ++ [some (w.pyrs.length, w.blds.length)])[v]? = some (some (p, b)) := hv
    show ∃ l x, (w.pyrs ++ [some []])[p]? = some (some l) ∧ (w.blds ++ [some (0, w.imgs.length)])[b]? = some (some x) ∧ l.length = x.1
    rcases Nat.lt_or_ge v w.vars.length with hl | hl
    · rw [List.getElem?_append_left hl] at hv
      obtain ⟨l, z, h1, h2, h3⟩ := hm v p b hv
      exact ⟨l, z, getElem?_before h1 _, getElem?_before h2 _, h3⟩
    · rw [List.getElem?_append_right hl] at hv
      have h0 : v - w.vars.length = 0 := by
        have := (List.getElem?_eq_some_iff.mp hv).1
        simp at this
        omega
      rw [h0] at hv
      cases hv
      exact ⟨[], (0, w.imgs.length), getElem?_last _ _, getElem?_last _ _, rfl⟩
  | build n src =>
    obtain ⟨_, hv', _, _, kp, kb, l, k, hl, hn, hb⟩ := h.buildFrom (show vpBuildFrom w n src = .ok w' from e)
    intro v p b hv
    rw [hv'] at hv
    rcases Nat.lt_or_ge v w.vars.length with hlt | hlt
    · rw [List.getElem?_append_left hlt] at hv
      obtain ⟨l, z, h1, h2, h3⟩ := hm v p b hv
      exact ⟨l, z, by rw [kp p ⟨v, _, hv, rfl⟩]; exact h1, by rw [kb b ⟨v, _, hv, rfl⟩]; exact h2, h3⟩
    · rw [List.getElem?_append_right hlt] at hv
      have h0 : v - w.vars.length = 0 := by
        have := (List.getElem?_eq_some_iff.mp hv).1
        simp at this
        omega
      rw [h0] at hv
      cases hv
      exact ⟨l, (n, k), hl, hb, hn⟩
  | copy s =>
    simp only [vpStep, Res.bind_eq_ok, Res.pure_eq, Res.ok.injEq] at e
    obtain ⟨x, hx, rfl⟩ := e
    intro v p b hv
    simp only at hv
    rcases Nat.lt_or_ge v w.vars.length with hlt | hlt
    · rw [List.getElem?_append_left hlt] at hv
      exact hm v p b hv
    · rw [List.getElem?_append_right hlt] at hv
      have h0 : v - w.vars.length = 0 := by
        have := (List.getElem?_eq_some_iff.mp hv).1
        simp at this
        omega
      rw [h0] at hv
      cases hv
      exact hm s p b (vpVar_ok.1 hx)
  | assign v s =>
    simp only [vpStep, Res.bind_eq_ok] at e
    obtain ⟨x, hx, e⟩ := e
    have hx := vpVar_ok.1 hx
    have ho := e
    unfold vpPut at ho
    simp only [Res.bind_eq_ok] at ho
    obtain ⟨old, hold, _⟩ := ho
    obtain ⟨u, eu, _, hv, _, _, _, kp, kb⟩ := h.toVpOwn.put (x := some x) (vpVar_ok.1 hold) (by
      intro q
      rw [h.pyrs]
      refine ⟨.inl, fun h => h.elim id ?_⟩
      rintro ⟨y, hy, h⟩
      cases hy
      exact ⟨s, x, hx, h⟩) (by
      intro q
      rw [h.blds]
      refine ⟨.inl, fun h => h.elim id ?_⟩
      rintro ⟨y, hy, h⟩
      cases hy
      exact ⟨s, x, hx, h⟩)
    rw [e] at eu
    cases eu
    exact hm.put hv (fun y hy => by cases hy; exact ⟨s, hx⟩) kp kb
  | drop v =>
    replace e : vpPut w v none = .ok w' := e
    have ho := e
    unfold vpPut at ho
    simp only [Res.bind_eq_ok] at ho
    obtain ⟨old, hold, _⟩ := ho
    obtain ⟨u, eu, _, hv, _, _, _, kp, kb⟩ := h.toVpOwn.put (x := none) (vpVar_ok.1 hold) (by
      intro q
      rw [h.pyrs]
      exact ⟨.inl, fun h => h.elim id fun ⟨_, hy, _⟩ => by cases hy⟩) (by
      intro q
      rw [h.blds]
      exact ⟨.inl, fun h => h.elim id fun ⟨_, hy, _⟩ => by cases hy⟩)
    rw [e] at eu
    cases eu
    exact hm.put hv (fun y hy => by cases hy) kp kb
  | rebuild v =>
    simp only [vpStep, Res.bind_eq_ok, Res.pure_eq, Res.ok.injEq] at e
    obtain ⟨_, _, _, _, rfl⟩ := e
    exact hm
  | rebuildFrom v src =>
    rw [hm.rebuildFrom h e]
    exact hm
  | level v j =>
    simp only [vpStep, Res.bind_eq_ok] at e
    obtain ⟨x, _, ls, hls, e⟩ := e
    split at e
    · simp only [Res.bind_eq_ok, Res.pure_eq, Res.ok.injEq] at e
      obtain ⟨k, hk, rfl⟩ := e
      exact hm
    · cases e
  | use l =>
    simp only [vpStep, Res.bind_eq_ok, Res.pure_eq, Res.ok.injEq] at e
    obtain ⟨_, _, rfl⟩ := e
    exact hm
  | allocLevels v n => exact hp.elim

theorem VpMatch.run : ∀ (ops : List VpOp) {w w' : VpWorld}, VpInv w → VpHnd w → VpMatch w → (∀ o ∈ ops, o.Plain) →
    vpRun w ops = .ok w' → VpMatch w' := by
  intro ops
  induction ops with
  | nil =>
    intro w w' _ _ hm _ e
    cases e
    exact hm
  | cons o os ih =>
    intro w w' h hh hm hp e
    simp only [vpRun, Res.bind_eq_ok] at e
    obtain ⟨u, eu, e⟩ := e
    obtain ⟨h1, h2⟩ := c140_step h hh eu
    exact ih h1 h2 (hm.step h (hp o (by simp)) eu) (fun o' ho => hp o' (by simp [ho])) e

/-- C140. In programs that use only the class, building a pyramid again keeps the images of its levels, so that every handle that
could be used still can; it is refused only for a variable that was made without an image, or an image that is refused. -/
theorem c140_rebuild_keeps {ops : List VpOp} (hp : ∀ o ∈ ops, o.Plain) {w : VpWorld} (e : vpRun vpStart ops = .ok w) {v : Nat}
    {h : Nat × Nat} (hv : w.vars[v]? = some (some h)) {src : VpSrc} (hs : VpSrcOk w src) :
    (vpStep w (.rebuildFrom v src) = .ok w ∧ ∃ l, w.pyrs[h.1]? = some (some l) ∧ l ≠ []) ∨
      (vpStep w (.rebuildFrom v src) = .fatal ∧ w.pyrs[h.1]? = some (some [])) := by
  obtain ⟨hi, hh⟩ := c140_run ops vpStart_inv.1 vpStart_inv.2 e
  have hm : VpMatch w := VpMatch.run ops vpStart_inv.1 vpStart_inv.2 (fun v p b hv => by simp [vpStart] at hv) hp e
  obtain ⟨l, x, hl, hx, hlen⟩ := hm v h.1 h.2 hv
  by_cases hn : x.1 = 0
  · right
    have : l = [] := List.eq_nil_of_length_eq_zero (by omega)
    subst this
    refine ⟨?_, hl⟩
    simp only [vpStep]
    rw [vpVar_ok.2 hv, Res.ok_bind]
    unfold vpBuild
    rw [vpBld_ok.2 hx, Res.ok_bind, if_pos hn]
  · left
    refine ⟨?_, l, hl, fun e => hn (by rw [← hlen, e]; rfl)⟩
    simp only [vpStep]
    rw [vpVar_ok.2 hv, Res.ok_bind]
    obtain ⟨u, eu, _, _, _, _, _, _, _, same, _⟩ := hi.toVpOwn.allocLevels hl hn
    have := same hlen
    subst this
    unfold vpBuild
    rw [vpBld_ok.2 hx, Res.ok_bind, if_neg hn, vpSrc_ok hi.toVpOwn hs, Res.ok_bind, eu, Res.ok_bind, vpSrc_ok hi.toVpOwn hs,
      Res.ok_bind]
    have hu : vpUpdate u h.1 h.2 = .ok () := by
      unfold vpUpdate
      rw [vpBld_ok.2 hx, Res.ok_bind, if_neg hn, vpLevels_ok.2 hl, Res.ok_bind, if_neg (by omega)]
      refine vpTouchAll_ok ?_
      intro i hi'
      rcases List.mem_cons.mp hi' with rfl | hi'
      · exact (hi.live _).2 ⟨_, .work (b := h.2) (n := x.1) hx⟩
      · exact hi.toVpOwn.levels_live hl i hi'
    rw [hu]
    rfl

/-- C140 is false: the handle of a level of a pyramid that is not kept in a variable. -/
theorem c140_temporary_false : vpRun vpStart [.build 3 .other, .level 0 0, .drop 0, .use 0] = .ub := by
  decide

/-- C140 is false: so it is if the variable gets another pyramid, but not if a copy is left. -/
theorem c140_assign_false :
    vpRun vpStart [.build 2 .other, .level 0 1, .build 2 .other, .assign 0 1, .use 0] = .ub ∧
    ∃ w, vpRun vpStart [.build 2 .other, .level 0 1, .copy 0, .build 2 .other, .assign 0 2, .use 0] = .ok w := by
  refine ⟨by decide, ?_⟩
  have h : ∀ r : Res VpWorld, r ≠ .fatal → r ≠ .ub → ∃ w, r = .ok w := by
    intro r h1 h2
    cases r with
    | ok w => exact ⟨w, rfl⟩
    | fatal => exact absurd rfl h1
    | ub => exact absurd rfl h2
  exact h _ (by decide) (by decide)

/-- C140 is false: the first level of a variable made without an image, and a level beyond the last. -/
theorem c140_index_false : vpRun vpStart [.ctor, .level 0 0] = .ub ∧ vpRun vpStart [.build 2 .other, .level 0 2] = .ub ∧
    vpRun vpStart [.build 2 .other, .level 0 (-1)] = .ub := by
  decide

/-- C140 is false: after another number of levels the handles are gone, a build again from one frees the image before it reads it. -/
theorem c140_alloc_levels_false : vpRun vpStart [.build 2 .other, .level 0 0, .allocLevels 0 3, .use 0] = .ub ∧
    vpRun vpStart [.build 2 .other, .allocLevels 0 3, .level 0 0, .rebuildFrom 0 (.lvl 0)] = .ub ∧
    vpRun vpStart [.build 2 .other, .allocLevels 0 3, .rebuild 0] = .fatal := by
  decide

/-! ## Examples -/

/-- A program that ends with all variables destroyed. -/
example : ∃ w, vpRun vpStart [.build 2 .other, .copy 0, .level 1 1, .drop 0, .use 0, .rebuildFrom 1 (.lvl 0), .drop 1] = .ok w ∧
    (∀ v ∈ w.vars, v = none) ∧ w.imgs = [false, false, false, false] :=
  ⟨⟨[false, false, false, false], [none, none], [none, none], [none, none], [3]⟩, by decide, by decide, rfl⟩

/-- A state where a handle can be used. -/
example : ∃ w, vpRun vpStart [.build 2 .other, .level 0 1] = .ok w ∧ w.lvls[0]? = some 3 ∧ VpUsable w 3 :=
  ⟨⟨[false, true, true, true], [none, some [2, 3]], [none, some (2, 1)], [some (1, 1)], [3]⟩, by decide, rfl, 0, (1, 1), [2, 3], rfl, rfl,
    by decide⟩

end Nx
