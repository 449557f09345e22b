import Verif.Model.Statistics

/-! # C39: five-number statistics are order statistics -/

namespace Nx

section
variable {α β : Type}

/-- `v` is the `k`-th smallest (from 0) of the sample `x`, whatever its order: at most
`k` elements are smaller and more than `k` are smaller or equal. -/
def OrderStat (key : α → Int) (x : List α) (k : Nat) (v : α) : Prop :=
  v ∈ x ∧ x.countP (fun a => key a < key v) ≤ k ∧ k < x.countP (fun a => key a ≤ key v)

/-- `m` is the median of the elements number `k0` to `k0 + len - 1` in order: the
middle one, or what `mid` makes of the two in the middle. -/
def MedianOf (c : StatsConfig α β) (x : List α) (k0 len : Nat) (m : β) : Prop :=
  (len % 2 = 1 ∧ ∃ v, OrderStat c.key x (k0 + len / 2) v ∧ m = c.conv v) ∨
  (len % 2 = 0 ∧ ∃ v w, OrderStat c.key x (k0 + len / 2 - 1) v ∧ OrderStat c.key x (k0 + len / 2) w ∧
    c.mid v w = .ok m)

/-- The five numbers of a sample of at least two elements: the quartiles are the
medians of the lower and the upper half (not counting the middle element of an odd
sample). -/
def FiveNumbers (c : StatsConfig α β) (x : List α) (s : Stats α β) : Prop :=
  s.n = x.length ∧ MedianOf c x 0 x.length s.median ∧ MedianOf c x 0 (x.length / 2) s.lowerQuartile ∧
  MedianOf c x (x.length - x.length / 2) (x.length / 2) s.upperQuartile ∧
  s.min ∈ x ∧ (∀ a ∈ x, c.key s.min ≤ c.key a) ∧ s.max ∈ x ∧ (∀ a ∈ x, c.key a ≤ c.key s.max)

/-- What `qsort` does. -/
def Sorts (key : α → Int) (qsort : List α → List α) : Prop :=
  ∀ x, (qsort x).Perm x ∧ (qsort x).Pairwise (fun a b => key a ≤ key b)

theorem orderStat_sorted {key : α → Int} {l x : List α} (hp : l.Perm x)
    (hs : l.Pairwise (fun a b => key a ≤ key b)) {k : Nat} (hk : k < l.length) : OrderStat key x k l[k] := by
  refine ⟨hp.mem_iff.mp (List.getElem_mem hk), ?_, ?_⟩
  · rw [← hp.countP_eq]
    have h0 : l.countP (fun a => decide (key a < key l[k])) = (l.take k).countP (fun a => decide (key a < key l[k]))
        + (l.drop k).countP (fun a => decide (key a < key l[k])) := by
      rw [← List.countP_append, List.take_append_drop]
    have h1 : (l.drop k).countP (fun a => decide (key a < key l[k])) = 0 := by
      rw [List.countP_eq_zero]
      intro a ha
      obtain ⟨i, hi, rfl⟩ := List.getElem_of_mem ha
      simp only [decide_eq_true_eq, List.getElem_drop, Int.not_lt]
      by_cases h0 : i = 0
      · subst h0; simp
      · have hi' : k + i < l.length := by simp at hi; omega
        exact (List.pairwise_iff_getElem.mp hs) k (k + i) hk hi' (by omega)
    have h2 := List.countP_le_length (p := fun a => decide (key a < key l[k])) (l := l.take k)
    rw [List.length_take] at h2
    omega
  · rw [← hp.countP_eq]
    have h1 : (l.take (k + 1)).countP (fun a => decide (key a ≤ key l[k])) = (l.take (k + 1)).length := by
      rw [List.countP_eq_length]
      intro a ha
      obtain ⟨i, hi, rfl⟩ := List.getElem_of_mem ha
      simp only [decide_eq_true_eq, List.getElem_take]
      have hi' : i < k + 1 := by rw [List.length_take] at hi; omega
      by_cases h0 : i = k
      · subst h0; simp
      · exact (List.pairwise_iff_getElem.mp hs) i k (by omega) hk (by omega)
    have h2 := (List.take_sublist (k + 1) l).countP_le (p := fun a => decide (key a ≤ key l[k]))
    rw [h1, List.length_take] at h2
    omega

/-- Order statistics are determined by the sample, up to the order. -/
theorem orderStat_unique {key : α → Int} {x : List α} {k : Nat} {v w : α} (hv : OrderStat key x k v)
    (hw : OrderStat key x k w) : key v = key w := by
  have aux : ∀ {v w : α}, OrderStat key x k v → OrderStat key x k w → ¬ key v < key w := by
    intro v w hv hw hlt
    have h : x.countP (fun a => key a ≤ key v) ≤ x.countP (fun a => key a < key w) := by
      apply List.countP_mono_left
      intro a _ ha
      simp only [decide_eq_true_eq] at ha ⊢
      omega
    have := hv.2.2; have := hw.2.1
    omega
  have := aux hv hw
  have := aux hw hv
  omega

theorem minMax_spec (c : StatsConfig α β) : ∀ (x : List α) (mn mx : α),
    let r := c.minMax x mn mx
    (r.1 = mn ∨ r.1 ∈ x) ∧ c.key r.1 ≤ c.key mn ∧ (∀ a ∈ x, c.key r.1 ≤ c.key a) ∧
    (r.2 = mx ∨ r.2 ∈ x) ∧ c.key mx ≤ c.key r.2 ∧ (∀ a ∈ x, c.key a ≤ c.key r.2)
  | [], mn, mx => by simp [StatsConfig.minMax]
  | a :: x, mn, mx => by
    have ih := minMax_spec c x (if c.key a < c.key mn then a else mn) (if c.key a > c.key mx then a else mx)
    simp only [StatsConfig.minMax] at ih ⊢
    obtain ⟨h1, h2, h3, h4, h5, h6⟩ := ih
    have e1 : c.key (if c.key a < c.key mn then a else mn) ≤ c.key mn ∧
        c.key (if c.key a < c.key mn then a else mn) ≤ c.key a := by split <;> omega
    have e2 : c.key mx ≤ c.key (if c.key a > c.key mx then a else mx) ∧
        c.key a ≤ c.key (if c.key a > c.key mx then a else mx) := by split <;> omega
    refine ⟨?_, by omega, ?_, ?_, by omega, ?_⟩
    · rcases h1 with h | h
      · rw [h]; split
        · exact Or.inr (List.mem_cons_self ..)
        · exact Or.inl rfl
      · exact Or.inr (List.mem_cons_of_mem _ h)
    · intro b hb
      rcases List.mem_cons.mp hb with rfl | hb
      · omega
      · exact h3 b hb
    · rcases h4 with h | h
      · rw [h]; split
        · exact Or.inr (List.mem_cons_self ..)
        · exact Or.inl rfl
      · exact Or.inr (List.mem_cons_of_mem _ h)
    · intro b hb
      rcases List.mem_cons.mp hb with rfl | hb
      · omega
      · exact h6 b hb

theorem convAt_median (c : StatsConfig α β) {l x : List α} (hp : l.Perm x)
    (hs : l.Pairwise (fun a b => c.key a ≤ c.key b)) {k0 len i : Nat} (hi : i = k0 + len / 2) (hlt : i < l.length)
    (ho : len % 2 = 1) : ∃ m, c.convAt l i = .ok m ∧ MedianOf c x k0 len m := by
  refine ⟨c.conv l[i], ?_, Or.inl ⟨ho, l[i], ?_, rfl⟩⟩
  · unfold StatsConfig.convAt
    rw [readAt_ok hlt]; rfl
  · subst hi; exact orderStat_sorted hp hs hlt

theorem midAt_median (c : StatsConfig α β) {l x : List α} (hp : l.Perm x)
    (hs : l.Pairwise (fun a b => c.key a ≤ c.key b))
    (hmid : ∀ a ∈ x, ∀ b ∈ x, ∃ m, c.mid a b = .ok m)
    {k0 len i j : Nat} (hi : i = k0 + len / 2 - 1) (hj : j = k0 + len / 2) (hlt : j < l.length)
    (ho : len % 2 = 0) : ∃ m, c.midAt l i j = .ok m ∧ MedianOf c x k0 len m := by
  have hlt' : i < l.length := by omega
  obtain ⟨m, hm⟩ := hmid l[i] (hp.mem_iff.mp (List.getElem_mem hlt')) l[j] (hp.mem_iff.mp (List.getElem_mem hlt))
  refine ⟨m, ?_, Or.inr ⟨ho, l[i], l[j], ?_, ?_, hm⟩⟩
  · unfold StatsConfig.midAt
    rw [readAt_ok hlt', readAt_ok hlt]
    exact hm
  · subst hi; exact orderStat_sorted hp hs hlt'
  · subst hj; exact orderStat_sorted hp hs hlt

theorem quartiles_ok (c : StatsConfig α β) {l x : List α} (hp : l.Perm x)
    (hs : l.Pairwise (fun a b => c.key a ≤ c.key b))
    (hmid : ∀ a ∈ x, ∀ b ∈ x, ∃ m, c.mid a b = .ok m) (hn : 2 ≤ l.length) :
    ∃ m lq uq, c.quartiles l.length l = .ok (m, lq, uq) ∧ MedianOf c x 0 x.length m ∧
      MedianOf c x 0 (x.length / 2) lq ∧ MedianOf c x (x.length - x.length / 2) (x.length / 2) uq := by
  have hl := hp.length_eq
  rw [← hl]
  unfold StatsConfig.quartiles
  simp only
  by_cases ho : l.length % 2 = 1
  · rw [if_pos ho]
    obtain ⟨m, m1, m2⟩ := convAt_median c hp hs (k0 := 0) (len := l.length) (i := l.length / 2) (by omega) (by omega) ho
    rw [m1]
    simp only [Res.ok_bind]
    by_cases hh : l.length / 2 % 2 = 1
    · rw [if_pos hh]
      obtain ⟨a, a1, a2⟩ := convAt_median c hp hs (k0 := 0) (len := l.length / 2) (i := l.length / 2 / 2)
        (by omega) (by omega) hh
      obtain ⟨b, b1, b2⟩ := convAt_median c hp hs (k0 := l.length - l.length / 2) (len := l.length / 2)
        (i := l.length / 2 + l.length / 2 / 2 + 1) (by omega) (by omega) hh
      rw [a1, b1]
      exact ⟨m, a, b, rfl, m2, a2, b2⟩
    · rw [if_neg hh]
      obtain ⟨a, a1, a2⟩ := midAt_median c hp hs hmid (k0 := 0) (len := l.length / 2) (i := l.length / 2 / 2 - 1)
        (j := l.length / 2 / 2) (by omega) (by omega) (by omega) (by omega)
      obtain ⟨b, b1, b2⟩ := midAt_median c hp hs hmid (k0 := l.length - l.length / 2) (len := l.length / 2)
        (i := l.length / 2 + l.length / 2 / 2) (j := l.length / 2 + l.length / 2 / 2 + 1)
        (by omega) (by omega) (by omega) (by omega)
      rw [a1, b1]
      exact ⟨m, a, b, rfl, m2, a2, b2⟩
  · rw [if_neg ho]
    obtain ⟨m, m1, m2⟩ := midAt_median c hp hs hmid (k0 := 0) (len := l.length) (i := l.length / 2 - 1)
      (j := l.length / 2) (by omega) (by omega) (by omega) (by omega)
    rw [m1]
    simp only [Res.ok_bind]
    by_cases hh : l.length / 2 % 2 = 1
    · rw [if_pos hh]
      obtain ⟨a, a1, a2⟩ := convAt_median c hp hs (k0 := 0) (len := l.length / 2) (i := l.length / 2 / 2)
        (by omega) (by omega) hh
      obtain ⟨b, b1, b2⟩ := convAt_median c hp hs (k0 := l.length - l.length / 2) (len := l.length / 2)
        (i := l.length / 2 + l.length / 2 / 2) (by omega) (by omega) hh
      rw [a1, b1]
      exact ⟨m, a, b, rfl, m2, a2, b2⟩
    · rw [if_neg hh]
      obtain ⟨a, a1, a2⟩ := midAt_median c hp hs hmid (k0 := 0) (len := l.length / 2) (i := l.length / 2 / 2 - 1)
        (j := l.length / 2 / 2) (by omega) (by omega) (by omega) (by omega)
      obtain ⟨b, b1, b2⟩ := midAt_median c hp hs hmid (k0 := l.length - l.length / 2) (len := l.length / 2)
        (i := l.length / 2 + l.length / 2 / 2 - 1) (j := l.length / 2 + l.length / 2 / 2)
        (by omega) (by omega) (by omega) (by omega)
      rw [a1, b1]
      exact ⟨m, a, b, rfl, m2, a2, b2⟩

theorem sorted_ok (c : StatsConfig α β) {qsort : List α → List α} (hq : Sorts c.key qsort) (x : List α)
    (hn : 2 ≤ x.length) (hmid : ∀ a ∈ x, ∀ b ∈ x, ∃ m, c.mid a b = .ok m)
    (htop : ∀ a ∈ x, c.key a < c.key c.top ∨ a = c.top) (hbot : ∀ a ∈ x, c.key c.bottom < c.key a ∨ a = c.bottom) :
    ∃ s, c.sorted (qsort x) = .ok s ∧ FiveNumbers c x s := by
  obtain ⟨hp, hs⟩ := hq x
  have hl := hp.length_eq
  obtain ⟨m, lq, uq, h1, h2, h3, h4⟩ := quartiles_ok c hp hs hmid (by omega)
  unfold StatsConfig.sorted
  rw [h1]
  refine ⟨_, rfl, hl, h2, h3, h4, ?_⟩
  have hmm := minMax_spec c (qsort x) c.top c.bottom
  simp only at hmm ⊢
  obtain ⟨g1, g2, g3, g4, g5, g6⟩ := hmm
  have hex : ∃ a, a ∈ qsort x := by
    match hx : qsort x, hl with
    | [], hl => rw [← hl] at hn; simp at hn
    | a :: _, _ => exact ⟨a, List.mem_cons_self ..⟩
  obtain ⟨a0, ha0⟩ := hex
  refine ⟨?_, fun a ha => g3 a (hp.mem_iff.mpr ha), ?_, fun a ha => g6 a (hp.mem_iff.mpr ha)⟩
  · rcases g1 with g | g
    · have := g3 a0 ha0
      rw [g] at this ⊢
      rcases htop a0 (hp.mem_iff.mp ha0) with h | h
      · omega
      · rw [← h]; exact hp.mem_iff.mp ha0
    · exact hp.mem_iff.mp g
  · rcases g4 with g | g
    · have := g6 a0 ha0
      rw [g] at this ⊢
      rcases hbot a0 (hp.mem_iff.mp ha0) with h | h
      · omega
      · rw [← h]; exact hp.mem_iff.mp ha0
    · exact hp.mem_iff.mp g

end

/-- C39 for doubles, up to `-DBL_MAX … DBL_MAX` (no NaN, no infinity), given by their
`key`; the half sum `mid` is any function. -/
theorem c39_double_partial {δ : Type} (key : δ → Int) (mid : δ → δ → δ) (dblMax negDblMax : δ) (qsort : List δ → List δ)
    (hq : Sorts key qsort) (x : List δ) (hn : 2 ≤ x.length)
    (hx : ∀ a ∈ x, (key a < key dblMax ∨ a = dblMax) ∧ (key negDblMax < key a ∨ a = negDblMax)) :
    ∃ s, dStatistics (doubleStats key mid dblMax negDblMax) qsort x = .ok s ∧
      FiveNumbers (doubleStats key mid dblMax negDblMax) x s := by
  unfold dStatistics
  match x, hn with
  | a :: b :: x, hn =>
    exact sorted_ok (doubleStats key mid dblMax negDblMax) hq (a :: b :: x) hn (fun a _ b _ => ⟨_, rfl⟩)
      (fun a ha => (hx a ha).1) (fun a ha => (hx a ha).2)

/-- C39 for ints (medians are given by twice their value): samples with values from
-2^30 to 2^30-1, so that sums and differences of two of them do not overflow. -/
theorem c39_int_partial (qsort : List Int → List Int) (hq : Sorts id qsort) (x : List Int) (hn : 2 ≤ x.length)
    (hx : ∀ a ∈ x, -1073741824 ≤ a ∧ a ≤ 1073741823) :
    ∃ s, iStatistics qsort x = .ok s ∧ FiveNumbers intStats x s := by
  have hd : diffsFit x = true := by
    unfold diffsFit
    rw [List.all_eq_true]
    intro a ha
    rw [List.all_eq_true]
    intro b hb
    have := hx a ha; have := hx b hb
    simp only [decide_eq_true_eq]
    constructor <;> omega
  unfold iStatistics
  match x, hn with
  | a :: b :: x, hn =>
    simp only
    rw [if_pos hd]
    refine sorted_ok intStats hq (a :: b :: x) hn ?_ ?_ ?_
    · intro p hp q hq
      have := hx p hp; have := hx q hq
      exact ⟨p + q, if_pos ⟨by omega, by omega⟩⟩
    · intro p hp
      have := hx p hp
      left
      show p < 2147483647
      omega
    · intro p hp
      have := hx p hp
      left
      show (-2147483648 : Int) < p
      omega

/-- One element. -/
theorem c39_single (qsort : List Int → List Int) (a : Int) :
    iStatistics qsort [a] = .ok ⟨1, 2 * a, 2 * a, 2 * a, a, a⟩ := rfl

theorem medianOf_int_unique {x y : List Int} (hp : x.Perm y) {k0 len : Nat} {m m' : Int}
    (h : MedianOf intStats x k0 len m) (h' : MedianOf intStats y k0 len m') : m = m' := by
  have tr : ∀ {k v}, OrderStat intStats.key y k v → OrderStat intStats.key x k v := by
    intro k v hv
    exact ⟨hp.mem_iff.mpr hv.1, by rw [hp.countP_eq]; exact hv.2.1, by rw [hp.countP_eq]; exact hv.2.2⟩
  have mid_inj : ∀ {a b c d m m' : Int}, intStats.mid a b = .ok m → intStats.mid c d = .ok m' → a = c → b = d → m = m' := by
    intro a b c d m m' h h' e1 e2
    subst e1; subst e2
    rw [h] at h'
    cases h'; rfl
  rcases h with ⟨ho, v, h1, h2⟩ | ⟨ho, v, w, h1, h2, h3⟩
  · rcases h' with ⟨_, v', h1', h2'⟩ | ⟨ho', _⟩
    · have e : v = v' := orderStat_unique h1 (tr h1')
      rw [h2, h2', e]
    · omega
  · rcases h' with ⟨ho', _⟩ | ⟨_, v', w', h1', h2', h3'⟩
    · omega
    · exact mid_inj h3 h3' (orderStat_unique h1 (tr h1')) (orderStat_unique h2 (tr h2'))

/-- C39: the results do not depend on the order of the sample (nor on how `qsort`
sorts). -/
theorem c39_order_independent {x y : List Int} (hp : x.Perm y) {s t : Stats Int Int}
    (hs : FiveNumbers intStats x s) (ht : FiveNumbers intStats y t) : s = t := by
  obtain ⟨a1, a2, a3, a4, a5, a6, a7, a8⟩ := hs
  obtain ⟨b1, b2, b3, b4, b5, b6, b7, b8⟩ := ht
  have hl := hp.length_eq
  rw [← hl] at b1 b2 b3 b4
  have e2 := medianOf_int_unique hp a2 b2
  have e3 := medianOf_int_unique hp a3 b3
  have e4 := medianOf_int_unique hp a4 b4
  have e5 : s.min = t.min := by
    have := a6 t.min (hp.mem_iff.mpr b5)
    have := b6 s.min (hp.mem_iff.mp a5)
    have k : ∀ i : Int, intStats.key i = i := fun _ => rfl
    rw [k, k] at *
    omega
  have e6 : s.max = t.max := by
    have := a8 t.max (hp.mem_iff.mpr b7)
    have := b8 s.max (hp.mem_iff.mp a7)
    have k : ∀ i : Int, intStats.key i = i := fun _ => rfl
    rw [k, k] at *
    omega
  obtain ⟨n, m, l, u, mn, mx⟩ := s
  obtain ⟨n', m', l', u', mn', mx'⟩ := t
  simp only at *
  rw [a1, b1, e2, e3, e4, e5, e6]

/-- Why the bounds: the comparison subtracts. -/
theorem c39_int_overflow : iStatistics id [-2147483648, 1] = .ub := by decide +kernel

/-- Why infinities are excluded: with a value above DBL_MAX in all places, the minimum
returned is DBL_MAX, which is not in the sample. -/
theorem c39_infinite : dStatistics (doubleStats (fun i : Int => i) (fun a _ => a) 100 (-100)) id [101, 101] =
    .ok ⟨2, 101, 101, 101, 100, 101⟩ := by decide +kernel

theorem sorts_mergeSort : Sorts id (fun x : List Int => x.mergeSort (fun a b => decide (a ≤ b))) := by
  intro x
  refine ⟨List.mergeSort_perm x _, ?_⟩
  have := List.pairwise_mergeSort (le := fun a b : Int => decide (a ≤ b))
    (by intro a b c; simp only [decide_eq_true_eq]; omega)
    (by intro a b; simp only [Bool.or_eq_true, decide_eq_true_eq]; omega) x
  simpa using this

example : iStatistics (fun _ => [1, 2, 3, 4, 5]) [5, 3, 1, 4, 2] = .ok ⟨5, 6, 3, 9, 1, 5⟩ := by decide +kernel

end Nx
