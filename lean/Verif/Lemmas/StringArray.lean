import Verif.Model.StringArray
import Verif.Lemmas.StrIO

/-!
# Invariant of the string array and preservation lemmas
-/

namespace Nx

/-- What a slot value denotes in a heap. -/
def Denotes (h : Heap) : Option Nat → Option Bytes → Prop
  | none, v => v = none
  | some p, v => ∃ s, v = some s ∧ h[p]? = some (some s)

/-- The array `a` over heap `h` represents the list `l`: the first `size` slots
hold pointers `ptrs` denoting the elements, no two slots share an object and all
live objects belong to a slot. -/
structure SaRepr (h : Heap) (a : SArr) (l : List (Option Bytes)) (ptrs : List (Option Nat)) : Prop where
  cap : a.elems.length = a.capacity
  sz : a.size = l.length
  le : a.size ≤ a.capacity
  slots : a.elems.take a.size = ptrs.map some
  den : ∀ i, i < l.length → ∃ p v, ptrs[i]? = some p ∧ l[i]? = some v ∧ Denotes h p v
  inj : ∀ (i j p : Nat), ptrs[i]? = some (some p) → ptrs[j]? = some (some p) → i = j
  live : ∀ (p : Nat) s, h[p]? = some (some s) → ∃ i : Nat, ptrs[i]? = some (some p)

theorem SaRepr.plen {h a l ptrs} (r : SaRepr h a l ptrs) : ptrs.length = l.length := by
  have := congrArg List.length r.slots
  simp only [List.length_take, List.length_map] at this
  have h1 := r.cap; have h2 := r.sz; have h3 := r.le
  omega

theorem SaRepr.slot {h a l ptrs} (r : SaRepr h a l ptrs) {i : Nat} {p} (hp : ptrs[i]? = some p) :
    slotAt a i = .ok p := by
  have hi : i < ptrs.length := by
    rw [List.getElem?_eq_some_iff] at hp; exact hp.1
  have h1 := r.cap; have h2 := r.sz; have h3 := r.le; have h4 := r.plen
  have hs : a.elems[i]? = some (some p) := by
    have h5 := congrArg (fun x : List (Option (Option Nat)) => x[i]?) r.slots
    simp only [List.getElem?_take, List.getElem?_map, hp] at h5
    rw [if_pos (by omega)] at h5
    simpa using h5
  simp [slotAt, readAt, hs]

theorem SaRepr.get {h a l ptrs} (r : SaRepr h a l ptrs) {i : Nat} (hi : i < l.length) :
    ∃ p v, ptrs[i]? = some p ∧ l[i]? = some v ∧ Denotes h p v ∧ slotAt a i = .ok p := by
  obtain ⟨p, v, h1, h2, h3⟩ := r.den i hi
  exact ⟨p, v, h1, h2, h3, r.slot h1⟩

theorem Denotes.read {h p v} (d : Denotes h p v) : (Src.ofSlot p).read h = .ok v := by
  cases p with
  | none => simp only [Denotes] at d; subst d; rfl
  | some p =>
    obtain ⟨s, rfl, hs⟩ := d
    simp [Src.ofSlot, Src.read, hs]

theorem Denotes.free {h p v} (d : Denotes h p v) :
    ∃ h', heapFree h p = .ok h' ∧ h'.length = h.length ∧
      (∀ q : Nat, p ≠ some q → h'[q]? = h[q]?) ∧ (∀ q : Nat, p = some q → h'[q]? = some none) := by
  cases p with
  | none => exact ⟨h, rfl, rfl, fun _ _ => rfl, by simp⟩
  | some p =>
    obtain ⟨s, rfl, hs⟩ := d
    refine ⟨h.set p none, by simp [heapFree, hs], by simp, ?_, ?_⟩
    · intro q hq
      have : p ≠ q := by intro e; exact hq (by rw [e])
      rw [List.getElem?_set_ne this]
    · intro q hq
      cases hq
      have hlt : p < h.length := by
        rw [List.getElem?_eq_some_iff] at hs; exact hs.1
      simp [hlt]

theorem Denotes.append {h p v} (d : Denotes h p v) (x : List (Option Bytes)) :
    Denotes (h ++ x) p v := by
  cases p with
  | none => exact d
  | some p =>
    obtain ⟨s, rfl, hs⟩ := d
    have hlt : p < h.length := by
      rw [List.getElem?_eq_some_iff] at hs; exact hs.1
    exact ⟨s, rfl, by rw [List.getElem?_append_left hlt, hs]⟩

/-- Replacing slot `i` by a fresh object (or NULL) after freeing the old one. -/
theorem SaRepr.replace {h a l ptrs} (r : SaRepr h a l ptrs) {i : Nat} (hi : i < l.length)
    (v : Option Bytes) {p} (hp : ptrs[i]? = some p) {h1 : Heap} (hf : heapFree h p = .ok h1) :
    SaRepr (h1 ++ v.toList.map some) { a with elems := a.elems.set i (some (v.map (fun _ => h1.length))) }
      (l.set i v) (ptrs.set i (v.map (fun _ => h1.length))) := by
  obtain ⟨p', w, hp', hw, hd, _⟩ := r.get hi
  rw [hp] at hp'
  cases hp'
  obtain ⟨h1', e1, e2, e3, e4⟩ := hd.free
  rw [hf] at e1
  cases e1
  have hpl := r.plen
  have hfresh : ∀ j q : Nat, ptrs[j]? = some (some q) → q < h.length := by
    intro j q hq
    have hj : j < l.length := by
      rw [← hpl]; rw [List.getElem?_eq_some_iff] at hq; exact hq.1
    obtain ⟨p', v', g1, g2, g3⟩ := r.den j hj
    rw [hq] at g1
    cases g1
    obtain ⟨s, _, hs⟩ := g3
    rw [List.getElem?_eq_some_iff] at hs; exact hs.1
  refine ⟨by simpa using r.cap, by simpa using r.sz, by simpa using r.le, ?_, ?_, ?_, ?_⟩
  · simp only [List.take_set, r.slots, ← List.map_set]
  · intro j hj
    rw [List.length_set] at hj
    by_cases hji : i = j
    · subst hji
      refine ⟨v.map (fun _ => h1.length), v, by simp [hpl, hi], by simp [hi], ?_⟩
      cases v with
      | none => rfl
      | some s => exact ⟨s, rfl, by simp⟩
    · obtain ⟨q, w', g1, g2, g3⟩ := r.den j hj
      refine ⟨q, w', by rw [List.getElem?_set_ne hji, g1], by rw [List.getElem?_set_ne hji, g2], ?_⟩
      apply Denotes.append
      cases q with
      | none => exact g3
      | some q =>
        obtain ⟨s, rfl, hs⟩ := g3
        refine ⟨s, rfl, ?_⟩
        rw [e3 q, hs]
        intro hpq
        subst hpq
        exact hji (r.inj i j q hp g1)
  · intro j k q hj hk
    by_cases h1e : i = j <;> by_cases h2e : i = k
    · omega
    · subst h1e
      rw [List.getElem?_set_ne h2e] at hk
      have := hfresh k q hk
      rw [List.getElem?_set_self (by omega)] at hj
      cases v with
      | none => simp at hj
      | some s =>
        simp at hj
        omega
    · subst h2e
      rw [List.getElem?_set_ne h1e] at hj
      have := hfresh j q hj
      rw [List.getElem?_set_self (by omega)] at hk
      cases v with
      | none => simp at hk
      | some s =>
        simp at hk
        omega
    · rw [List.getElem?_set_ne h1e] at hj
      rw [List.getElem?_set_ne h2e] at hk
      exact r.inj j k q hj hk
  · intro q s hq
    by_cases hql : q < h1.length
    · rw [List.getElem?_append_left hql] at hq
      have hne : p ≠ some q := by
        intro e
        rw [e4 q e] at hq
        simp at hq
      rw [e3 q hne] at hq
      obtain ⟨j, hj⟩ := r.live q s hq
      have hij : i ≠ j := by
        intro e; subst e
        rw [hp] at hj
        cases hj
        exact hne rfl
      exact ⟨j, by rw [List.getElem?_set_ne hij, hj]⟩
    · refine ⟨i, ?_⟩
      rw [List.getElem?_append_right (by omega)] at hq
      cases v with
      | none => simp at hq
      | some t =>
        simp only [Option.toList, List.map_cons, List.map_nil] at hq
        have : q - h1.length = 0 := by
          rcases Nat.eq_zero_or_pos (q - h1.length) with h | h
          · exact h
          · rw [List.getElem?_eq_none (by simp; omega)] at hq
            simp at hq
        have : q = h1.length := by omega
        subst this
        simp [hpl, hi]

/-- The capacity bound under which `NX_ENSURE_CAPACITY` cannot overflow. -/
def saMax : Nat := 715827875

theorem ensureCapacity_ok {a : SArr} {req : Nat} (hc : a.elems.length = a.capacity)
    (hr : req ≤ saMax) :
    ∃ a', ensureCapacity a req = .ok a' ∧ a'.size = a.size ∧ req ≤ a'.capacity ∧
      a.capacity ≤ a'.capacity ∧ a'.elems.length = a'.capacity ∧ ∃ x, a'.elems = a.elems ++ x := by
  unfold ensureCapacity
  by_cases h : a.capacity < req
  · rw [if_pos h]
    have hno : ¬ (a.capacity + 8) * 3 > intMax := by
      simp only [saMax, intMax] at *; omega
    rw [if_neg hno]
    refine ⟨_, rfl, rfl, ?_, ?_, ?_, _, rfl⟩
    · simp only []; split <;> omega
    · simp only []; split <;> omega
    · simp only [List.length_append, List.length_replicate]; split <;> omega
  · rw [if_neg h]
    exact ⟨a, rfl, rfl, by omega, by omega, hc, [], by simp⟩

theorem saGrow_ok (a : SArr) (i n : Nat) (hi : i ≤ n) (hn : n ≤ a.elems.length) :
    saGrow a i n = .ok { a with
      elems := a.elems.take i ++ List.replicate (n - i) (some none) ++ a.elems.drop n } := by
  induction hk : n - i generalizing i a with
  | zero =>
    have : i = n := by omega
    subst this
    rw [saGrow, if_neg (by omega)]
    simp
  | succ k ih =>
    rw [saGrow, if_pos (by omega), writeAt_ok _ (by omega)]
    simp only [Res.ok_bind]
    rw [ih _ (i + 1) (by omega) (by simpa using hn) (by omega)]
    congr 2
    rw [List.take_set, List.drop_set_of_lt (by omega)]
    have : (a.elems.take (i + 1)).set i (some none) = a.elems.take i ++ [some none] := by
      rw [List.take_add_one, List.set_append]
      have hl : (a.elems.take i).length = i := by simp; omega
      rw [if_neg (by omega), hl]
      have : a.elems[i]? = some a.elems[i] := List.getElem?_eq_getElem (by omega)
      simp [this]
    rw [this, List.replicate_succ]
    simp

theorem SaRepr.shrinkLoop {h a l ptrs} (r : SaRepr h a l ptrs) (i n : Nat) (hi : i ≤ l.length)
    (hn : n ≤ i) (hnull : ∀ j, n ≤ j → j < i → l[j]? = some none) :
    ∃ h' a' l' ptrs', saShrink h a i = .ok (h', a') ∧ SaRepr h' a' l' ptrs' ∧ l'.length = l.length ∧
      l'.take n = l.take n ∧ (∀ j, n ≤ j → j < l'.length → l'[j]? = some none) ∧
      a'.capacity = a.capacity := by
  induction hk : l.length - i generalizing h a l ptrs i with
  | zero =>
    have : i = l.length := by omega
    subst this
    rw [saShrink, if_neg (by rw [r.sz]; omega)]
    exact ⟨h, a, l, ptrs, rfl, r, rfl, rfl, hnull, rfl⟩
  | succ k ih =>
    obtain ⟨p, v, hp, hv, hd, hs⟩ := r.get (by omega : i < l.length)
    obtain ⟨h1, e1, e2, e3, e4⟩ := hd.free
    have r' := r.replace (by omega : i < l.length) none hp e1
    simp only [Option.toList, List.map_nil, List.append_nil, Option.map] at r'
    rw [saShrink, if_pos (by rw [r.sz]; omega), hs]
    simp only [Res.ok_bind]
    rw [e1]
    simp only [Res.ok_bind]
    have hlen : i < a.elems.length := by
      have := r.cap; have := r.le; have := r.sz; omega
    rw [writeAt_ok _ hlen]
    simp only [Res.ok_bind]
    obtain ⟨h', a', l', ptrs', g1, g2, g3, g4, g5, g6⟩ := ih r' (i + 1) (by simp; omega) (by omega)
      (by
        intro j hj1 hj2
        by_cases hji : i = j
        · subst hji; rw [List.getElem?_set_self (by omega)]
        · rw [List.getElem?_set_ne hji]; exact hnull j hj1 (by omega))
      (by simp; omega)
    refine ⟨h', a', l', ptrs', g1, g2, by simpa using g3, ?_, g5, g6⟩
    rw [g4, List.take_set_of_le hn]

/-- The specification of resizing. -/
def resizeList (l : List (Option Bytes)) (n : Nat) : List (Option Bytes) :=
  l.take n ++ List.replicate (n - l.length) none

theorem SaRepr.resize {h a l ptrs} (r : SaRepr h a l ptrs) (n : Nat) (hn : n ≤ saMax) :
    ∃ h' a' ptrs', saResize h a n = .ok (h', a') ∧ SaRepr h' a' (resizeList l n) ptrs' ∧
      (l.length ≤ n → h' = h ∧ ptrs' = ptrs ++ List.replicate (n - l.length) none) := by
  unfold saResize
  rw [if_neg (by omega), Int.toNat_natCast]
  by_cases hc : n < a.size
  · rw [if_pos hc]
    have hsz := r.sz
    obtain ⟨h', a', l', ptrs', g1, g2, g3, g4, g5, g6⟩ := r.shrinkLoop n n (by omega) (Nat.le_refl _)
      (by intro j h1 h2; omega)
    rw [g1]
    simp only [Res.ok_bind, Res.pure_eq]
    have e : resizeList l n = l'.take n := by
      rw [resizeList, show n - l.length = 0 by omega, List.replicate_zero, List.append_nil, g4]
    have hpl := g2.plen
    refine ⟨_, _, ptrs'.take n, rfl, ?_, by omega⟩
    rw [e]
    have hnone : ∀ (j p : Nat), n ≤ j → ptrs'[j]? ≠ some (some p) := by
      intro j p hj hp
      have hjl : j < l'.length := by
        rw [← hpl]; rw [List.getElem?_eq_some_iff] at hp; exact hp.1
      obtain ⟨q, v, q1, q2, q3⟩ := g2.den j hjl
      rw [hp] at q1
      cases q1
      rw [g5 j hj hjl] at q2
      cases q2
      obtain ⟨s, hs, _⟩ := q3
      cases hs
    refine ⟨g2.cap, by simp; omega, ?_, ?_, ?_, ?_, ?_⟩
    · have := g2.le; have := g2.sz; simp only []; omega
    · have := g2.sz
      have hh : a'.elems.take n = (a'.elems.take a'.size).take n := by
        rw [List.take_take]; congr 1; omega
      simp only []
      rw [hh, g2.slots, List.map_take]
    · intro i hi
      have hi' : i < l'.length ∧ i < n := by simp at hi; omega
      obtain ⟨p, v, q1, q2, q3⟩ := g2.den i hi'.1
      exact ⟨p, v, by rw [List.getElem?_take, if_pos hi'.2, q1],
        by rw [List.getElem?_take, if_pos hi'.2, q2], q3⟩
    · intro i j p h1 h2
      rw [List.getElem?_take] at h1 h2
      split at h1 <;> split at h2 <;> simp_all
      exact g2.inj i j p h1 h2
    · intro p s hs
      obtain ⟨i, hi⟩ := g2.live p s hs
      refine ⟨i, ?_⟩
      have : i < n := by
        rcases Nat.lt_or_ge i n with h | h
        · exact h
        · exact absurd hi (hnone i p h)
      rw [List.getElem?_take, if_pos this, hi]
  · rw [if_neg hc]
    have hsz := r.sz
    obtain ⟨a1, c1, c2, c3, c4, c5, x, c6⟩ := ensureCapacity_ok r.cap hn
    rw [c1]
    simp only [Res.ok_bind]
    rw [saGrow_ok a1 a1.size n (by omega) (by omega)]
    simp only [Res.ok_bind, Res.pure_eq]
    have hpl := r.plen
    refine ⟨_, _, ptrs ++ List.replicate (n - l.length) none, rfl, ?_, fun _ => ⟨rfl, rfl⟩⟩
    have hle := r.le
    have hcap := r.cap
    have e : resizeList l n = l ++ List.replicate (n - l.length) none := by
      rw [resizeList, List.take_of_length_le (by omega)]
    rw [e]
    have htake : a1.elems.take a1.size = ptrs.map some := by
      rw [c6, c2, List.take_append_of_le_length (by omega), r.slots]
    refine ⟨?_, by simp; omega, by simp only []; omega, ?_, ?_, ?_, ?_⟩
    · simp only [List.length_append, List.length_take, List.length_replicate, List.length_drop]
      omega
    · simp only []
      rw [htake, List.take_left' (by simp; omega), List.map_append, List.map_replicate, c2, hsz]
    · intro i hi
      by_cases hil : i < l.length
      · obtain ⟨p, v, q1, q2, q3⟩ := r.den i hil
        exact ⟨p, v, by rw [List.getElem?_append_left (by omega), q1],
          by rw [List.getElem?_append_left hil, q2], q3⟩
      · simp at hi
        refine ⟨none, none, ?_, ?_, rfl⟩
        · rw [List.getElem?_append_right (by omega), List.getElem?_replicate, if_pos (by omega)]
        · rw [List.getElem?_append_right (by omega), List.getElem?_replicate, if_pos (by omega)]
    · intro i j p h1 h2
      have key : ∀ i : Nat, (ptrs ++ List.replicate (n - l.length) none)[i]? = some (some p) →
          ptrs[i]? = some (some p) := by
        intro i hi
        rw [List.getElem?_append] at hi
        split at hi
        · exact hi
        · rw [List.getElem?_replicate] at hi
          split at hi <;> simp at hi
      exact r.inj i j p (key i h1) (key j h2)
    · intro p s hs
      obtain ⟨i, hi⟩ := r.live p s hs
      refine ⟨i, ?_⟩
      have : i < ptrs.length := by rw [List.getElem?_eq_some_iff] at hi; exact hi.1
      rw [List.getElem?_append_left this, hi]

/-- Setting a slot from an argument that stays readable after the old string is freed. -/
theorem SaRepr.setSlot {h a l ptrs} (r : SaRepr h a l ptrs) {i : Nat} (hi : i < l.length)
    (src : Src) (v : Option Bytes)
    (hread : ∀ p h', ptrs[i]? = some p → heapFree h p = .ok h' → src.read h' = .ok v) :
    ∃ h' a' ptrs', saSet h a i src = .ok (h', a') ∧ SaRepr h' a' (l.set i v) ptrs' := by
  obtain ⟨p, w, hp, hw, hd, hs⟩ := r.get hi
  obtain ⟨h1, e1, e2, e3, e4⟩ := hd.free
  have r' := r.replace hi v hp e1
  have hlen : i < a.elems.length := by
    have := r.cap; have := r.le; have := r.sz; omega
  have hc : (0 : Int) ≤ (i : Int) ∧ (i : Int) < a.size := by
    have := r.sz; omega
  unfold saSet
  rw [if_pos hc, Int.toNat_natCast, hs]
  simp only [Res.ok_bind, strredup, e1, hread p h1 hp e1]
  cases v with
  | none =>
    simp only [Res.ok_bind, Res.pure_eq, writeAt_ok _ hlen]
    simp only [Option.toList, List.map_nil, List.append_nil, Option.map] at r'
    exact ⟨_, _, _, rfl, r'⟩
  | some s =>
    simp only [Res.ok_bind, Res.pure_eq, writeAt_ok _ hlen]
    exact ⟨_, _, _, rfl, r'⟩

theorem SaRepr.setfSlot {h a l ptrs} (r : SaRepr h a l ptrs) {i : Nat} (hi : i < l.length)
    (fmt : List Src) (s : Bytes)
    (hread : ∀ p h', ptrs[i]? = some p → heapFree h p = .ok h' → fmtRead h' fmt = .ok s) :
    ∃ h' a' ptrs', saSetf h a i fmt = .ok (h', a') ∧ SaRepr h' a' (l.set i (some s)) ptrs' := by
  obtain ⟨p, w, hp, hw, hd, hs⟩ := r.get hi
  obtain ⟨h1, e1, e2, e3, e4⟩ := hd.free
  have r' := r.replace hi (some s) hp e1
  have hlen : i < a.elems.length := by
    have := r.cap; have := r.le; have := r.sz; omega
  have hc : (0 : Int) ≤ (i : Int) ∧ (i : Int) < a.size := by
    have := r.sz; omega
  unfold saSetf
  rw [if_pos hc, Int.toNat_natCast, hs]
  simp only [Res.ok_bind, e1, hread p h1 hp e1, Res.pure_eq, writeAt_ok _ hlen]
  exact ⟨_, _, _, rfl, r'⟩

theorem SaRepr.empty : SaRepr [] saAlloc [] [] :=
  ⟨rfl, rfl, by decide, rfl, by simp, by simp, by simp⟩

theorem SaRepr.freeLoop {h a l ptrs} (r : SaRepr h a l ptrs) (i : Nat) (hi : i ≤ l.length)
    (h0 : Heap)
    (hlen : h0.length = h.length)
    (hkeep : ∀ j p : Nat, i ≤ j → ptrs[j]? = some (some p) → h0[p]? = h[p]?)
    (hdead : ∀ (p : Nat) s, h0[p]? = some (some s) → ∃ j : Nat, i ≤ j ∧ ptrs[j]? = some (some p)) :
    ∃ h', saFreeLoop h0 a i = .ok h' ∧ ∀ (p : Nat) s, h'[p]? ≠ some (some s) := by
  induction hk : l.length - i generalizing i h0 with
  | zero =>
    have : i = l.length := by omega
    subst this
    rw [saFreeLoop, if_neg (by rw [r.sz]; omega)]
    refine ⟨h0, rfl, ?_⟩
    intro p s hp
    obtain ⟨j, hj1, hj2⟩ := hdead p s hp
    have := r.plen
    rw [List.getElem?_eq_none (by omega)] at hj2
    simp at hj2
  | succ k ih =>
    obtain ⟨p, v, hp, hv, hd, hs⟩ := r.get (by omega : i < l.length)
    rw [saFreeLoop, if_pos (by rw [r.sz]; omega), hs]
    simp only [Res.ok_bind]
    have hd0 : Denotes h0 p v := by
      cases p with
      | none => exact hd
      | some q =>
        obtain ⟨s, h1, h2⟩ := hd
        exact ⟨s, h1, by rw [hkeep i q (Nat.le_refl _) hp, h2]⟩
    obtain ⟨h1, e1, e2, e3, e4⟩ := hd0.free
    rw [e1]
    simp only [Res.ok_bind]
    apply ih (i + 1) (by omega) h1 (by omega)
    · intro j q hj hq
      rw [e3 q, hkeep j q (by omega) hq]
      intro e
      subst e
      have := r.inj i j q hp hq
      omega
    · intro q s hq
      have hne : p ≠ some q := by
        intro e; rw [e4 q e] at hq; simp at hq
      rw [e3 q hne] at hq
      obtain ⟨j, hj1, hj2⟩ := hdead q s hq
      refine ⟨j, ?_, hj2⟩
      rcases Nat.lt_or_ge i j with h | h
      · omega
      · have : j = i := by omega
        subst this
        rw [hp] at hj2
        cases hj2
        exact absurd rfl hne
    · omega

end Nx
