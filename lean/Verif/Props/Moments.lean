import Mathlib.Algebra.BigOperators.Group.List.Basic
import Mathlib.Algebra.Order.BigOperators.Group.List
import Mathlib.Tactic.Linarith
import Mathlib.Tactic.LinearCombination
import Mathlib.Tactic.FieldSimp
import Mathlib.Tactic.Positivity
import Verif.Model.Moments
import Verif.Props.Statistics

/-! # C39: mean, standard deviation and the range between the quartiles -/

namespace Nx

theorem momSum_eq (x : List ℝ) (s : ℝ) : momSum x s = s + x.sum := by
  induction x generalizing s with
  | nil => simp [momSum]
  | cons a x ih => rw [momSum, ih, List.sum_cons]; ring

theorem momSq_eq (m : ℝ) (x : List ℝ) (s : ℝ) : momSq m x s = s + (x.map (fun a => (a - m) ^ 2)).sum := by
  induction x generalizing s with
  | nil => simp [momSq]
  | cons a x ih => rw [momSq, ih, List.map_cons, List.sum_cons]; ring

theorem sqSum_nonneg (m : ℝ) (x : List ℝ) : 0 ≤ (x.map (fun a => (a - m) ^ 2)).sum := by
  induction x with
  | nil => simp
  | cons a x ih => rw [List.map_cons, List.sum_cons]; positivity

theorem sqSum_ge {m a : ℝ} {x : List ℝ} (h : a ∈ x) : (a - m) ^ 2 ≤ (x.map (fun a => (a - m) ^ 2)).sum := by
  induction x with
  | nil => cases h
  | cons b x ih =>
    rw [List.map_cons, List.sum_cons]
    rcases List.mem_cons.mp h with rfl | h
    · have := sqSum_nonneg m x; linarith
    · have := ih h; have := sq_nonneg (b - m); linarith

/-- Sum of squares of differences to any number. -/
theorem sqSum_shift (x : List ℝ) (m c : ℝ) : (x.map (fun a => (a - c) ^ 2)).sum =
    (x.map (fun a => (a - m) ^ 2)).sum + 2 * (m - c) * (x.sum - x.length * m) + x.length * (m - c) ^ 2 := by
  induction x with
  | nil => simp
  | cons a x ih =>
    rw [List.map_cons, List.sum_cons, ih, List.map_cons, List.sum_cons, List.sum_cons, List.length_cons]
    push_cast
    ring

/-- What any sample is mapped to, `qsort` being a permutation. -/
theorem dMoments_many {qsort : List ℝ → List ℝ} (hq : ∀ x, (qsort x).Perm x) {x : List ℝ} (hn : 1 ≤ x.length) :
    (dMoments qsort x).n = x.length ∧ (dMoments qsort x).mean * x.length = x.sum ∧ 0 ≤ (dMoments qsort x).stdev ∧
      (dMoments qsort x).stdev ^ 2 * ((x.length : ℝ) - 1) = (x.map (fun a => (a - (dMoments qsort x).mean) ^ 2)).sum := by
  match x, hn with
  | [a], _ => simp [dMoments]
  | a :: b :: x, _ =>
    have hp := hq (a :: b :: x)
    generalize hy : a :: b :: x = y at *
    have hl : 2 ≤ y.length := by rw [← hy]; simp
    have e : dMoments qsort y = momMany (qsort y) := by rw [← hy]; rfl
    have hl' : (2 : ℝ) ≤ (y.length : ℝ) := by exact_mod_cast hl
    rw [e]
    unfold momMany
    simp only [momSum_eq, momSq_eq, zero_add, hp.length_eq, hp.sum_eq, (hp.map _).sum_eq]
    refine ⟨trivial, ?_, Real.sqrt_nonneg _, ?_⟩
    · field_simp
    · rw [Real.sq_sqrt (div_nonneg (sqSum_nonneg _ _) (by linarith))]
      have : (y.length : ℝ) - 1 ≠ 0 := by intro h; linarith
      exact div_mul_cancel₀ _ this

section
variable (qsort : List ℝ → List ℝ) (hq : ∀ x, (qsort x).Perm x)
include hq

/-- The mean is the sum divided by the number of elements. -/
theorem c39_mean (x : List ℝ) (hn : 1 ≤ x.length) : (dMoments qsort x).n = x.length ∧ (dMoments qsort x).mean * x.length = x.sum :=
  ⟨(dMoments_many hq hn).1, (dMoments_many hq hn).2.1⟩

/-- The standard deviation is the root of the sum of the squared distances from the mean divided by one less than the number of
elements. -/
theorem c39_stdev (x : List ℝ) (hn : 2 ≤ x.length) : 0 ≤ (dMoments qsort x).stdev ∧
    (dMoments qsort x).stdev ^ 2 = (x.map (fun a => (a - x.sum / x.length) ^ 2)).sum / ((x.length : ℝ) - 1) := by
  obtain ⟨-, h1, h2, h3⟩ := dMoments_many hq (x := x) (by omega)
  refine ⟨h2, ?_⟩
  have hl' : (2 : ℝ) ≤ (x.length : ℝ) := by exact_mod_cast hn
  have : (x.length : ℝ) - 1 ≠ 0 := by intro h; linarith
  rw [eq_div_iff this, h3, ← h1, mul_div_assoc, div_self (by intro h; linarith), mul_one]

/-- The same without the mean: the mean of the squared distances of all pairs of elements is twice the square of the standard
deviation. -/
theorem c39_pairs (x : List ℝ) (hn : 2 ≤ x.length) :
    (x.map (fun b => (x.map (fun a => (a - b) ^ 2)).sum)).sum = 2 * (x.length * ((x.length : ℝ) - 1)) * (dMoments qsort x).stdev ^ 2 := by
  obtain ⟨-, h1, -, h3⟩ := dMoments_many hq (x := x) (by omega)
  generalize (dMoments qsort x).mean = m at *
  generalize (dMoments qsort x).stdev = s at *
  have e : ∀ b, (x.map (fun a => (a - b) ^ 2)).sum = s ^ 2 * ((x.length : ℝ) - 1) + x.length * (b - m) ^ 2 := by
    intro b
    rw [sqSum_shift x m b, ← h3, ← h1]
    ring
  have e2 : ∀ y : List ℝ, (y.map (fun b => (x.map (fun a => (a - b) ^ 2)).sum)).sum =
      y.length * (s ^ 2 * ((x.length : ℝ) - 1)) + x.length * (y.map (fun a => (a - m) ^ 2)).sum := by
    intro y
    induction y with
    | nil => simp
    | cons b y ih =>
      rw [List.map_cons, List.sum_cons, ih, e, List.map_cons, List.sum_cons, List.length_cons]
      push_cast
      ring
  rw [e2, ← h3]
  ring

/-- The mean is between all bounds of the sample. -/
theorem c39_mean_between (x : List ℝ) (hn : 1 ≤ x.length) (lo hi : ℝ) (h : ∀ a ∈ x, lo ≤ a ∧ a ≤ hi) :
    lo ≤ (dMoments qsort x).mean ∧ (dMoments qsort x).mean ≤ hi := by
  obtain ⟨-, h1, -, -⟩ := dMoments_many hq hn
  have hl' : (1 : ℝ) ≤ (x.length : ℝ) := by exact_mod_cast hn
  have e : ∀ y : List ℝ, (∀ a ∈ y, lo ≤ a ∧ a ≤ hi) → y.length * lo ≤ y.sum ∧ y.sum ≤ y.length * hi := by
    intro y hy
    induction y with
    | nil => simp
    | cons b y ih =>
      obtain ⟨i1, i2⟩ := ih (fun a ha => hy a (List.mem_cons_of_mem _ ha))
      obtain ⟨j1, j2⟩ := hy b List.mem_cons_self
      rw [List.sum_cons, List.length_cons]
      push_cast
      constructor <;> linarith
  obtain ⟨i1, i2⟩ := e x h
  rw [← h1] at i1 i2
  constructor <;> nlinarith

/-- Of all numbers the mean has the least sum of squared distances, and no other has it. -/
theorem c39_mean_least (x : List ℝ) (hn : 1 ≤ x.length) (c : ℝ) :
    (x.map (fun a => (a - (dMoments qsort x).mean) ^ 2)).sum ≤ (x.map (fun a => (a - c) ^ 2)).sum ∧
      ((x.map (fun a => (a - (dMoments qsort x).mean) ^ 2)).sum = (x.map (fun a => (a - c) ^ 2)).sum → c = (dMoments qsort x).mean) := by
  obtain ⟨-, h1, -, -⟩ := dMoments_many hq hn
  have hl' : (1 : ℝ) ≤ (x.length : ℝ) := by exact_mod_cast hn
  generalize (dMoments qsort x).mean = m at *
  rw [sqSum_shift x m c, ← h1]
  have e : 2 * (m - c) * (m * (x.length : ℝ) - x.length * m) = 0 := by ring
  rw [e]
  constructor
  · have : 0 ≤ (x.length : ℝ) * (m - c) ^ 2 := by positivity
    linarith
  · intro h
    have h : (x.length : ℝ) * (m - c) ^ 2 = 0 := by linarith
    rcases mul_eq_zero.mp h with h | h
    · linarith
    · have := pow_eq_zero_iff (two_ne_zero) |>.mp h
      linarith

/-- No element is further from the mean than the standard deviation times the root of one less than their number. -/
theorem c39_distance (x : List ℝ) (hn : 1 ≤ x.length) (a : ℝ) (ha : a ∈ x) :
    (a - (dMoments qsort x).mean) ^ 2 ≤ (dMoments qsort x).stdev ^ 2 * ((x.length : ℝ) - 1) := by
  rw [(dMoments_many hq hn).2.2.2]
  exact sqSum_ge ha

/-- The standard deviation is zero only if all elements are equal. -/
theorem c39_stdev_zero (x : List ℝ) (hn : 1 ≤ x.length) : (dMoments qsort x).stdev = 0 ↔ ∀ a ∈ x, ∀ b ∈ x, a = b := by
  obtain ⟨-, h1, h2, h3⟩ := dMoments_many hq hn
  constructor
  · intro h
    have key : ∀ a ∈ x, a = (dMoments qsort x).mean := by
      intro a ha
      have := c39_distance qsort hq x hn a ha
      rw [h] at this
      have := pow_eq_zero_iff (two_ne_zero) |>.mp (le_antisymm (by linarith) (sq_nonneg (a - (dMoments qsort x).mean)))
      linarith
    intro a ha b hb
    rw [key a ha, key b hb]
  · intro h
    match x, hn with
    | [a], _ => rfl
    | a :: b :: y, _ =>
      generalize hx : a :: b :: y = x at *
      have hl : 2 ≤ x.length := by rw [← hx]; simp
      have hl' : (2 : ℝ) ≤ (x.length : ℝ) := by exact_mod_cast hl
      have ha : a ∈ x := by rw [← hx]; simp
      have hm := c39_mean_between qsort hq x (by omega) a a (fun c hc => ⟨(h a ha c hc).le, (h c hc a ha).le⟩)
      have hm : (dMoments qsort x).mean = a := le_antisymm hm.2 hm.1
      have z : ∀ y : List ℝ, (∀ c ∈ y, c = a) → (y.map (fun c => (c - a) ^ 2)).sum = 0 := by
        intro y hy
        induction y with
        | nil => simp
        | cons c y ih =>
          rw [List.map_cons, List.sum_cons, ih (fun c hc => hy c (List.mem_cons_of_mem _ hc)), hy c List.mem_cons_self]
          ring
      rw [hm, z x (fun c hc => h c hc a ha)] at h3
      rcases mul_eq_zero.mp h3 with h3 | h3
      · exact pow_eq_zero_iff (two_ne_zero) |>.mp h3
      · linarith

/-- Neither depends on the order of the sample. -/
theorem c39_moments_order (x y : List ℝ) (hp : x.Perm y) : dMoments qsort x = dMoments qsort y := by
  have hl := hp.length_eq
  by_cases h0 : x.length = 0
  · have e1 := List.eq_nil_of_length_eq_zero h0
    have e2 := List.eq_nil_of_length_eq_zero (hl ▸ h0)
    rw [e1, e2]
  · obtain ⟨a1, a2, a3, a4⟩ := dMoments_many hq (x := x) (by omega)
    obtain ⟨b1, b2, b3, b4⟩ := dMoments_many hq (x := y) (by omega)
    have hl' : (1 : ℝ) ≤ (x.length : ℝ) := by exact_mod_cast (by omega : 1 ≤ x.length)
    have em : (dMoments qsort x).mean = (dMoments qsort y).mean := by
      have : (dMoments qsort x).mean * x.length = (dMoments qsort y).mean * x.length := by
        rw [a2, hl, b2, hp.sum_eq]
      exact mul_right_cancel₀ (by intro h; linarith) this
    have es : (dMoments qsort x).stdev = (dMoments qsort y).stdev := by
      by_cases h1 : x.length = 1
      · obtain ⟨a, e⟩ := List.length_eq_one_iff.mp h1
        obtain ⟨b, e'⟩ := List.length_eq_one_iff.mp (hl ▸ h1)
        rw [e, e']; rfl
      · have hl2 : (2 : ℝ) ≤ (x.length : ℝ) := by exact_mod_cast (by omega : 2 ≤ x.length)
        have : (dMoments qsort x).stdev ^ 2 * ((x.length : ℝ) - 1) = (dMoments qsort y).stdev ^ 2 * ((x.length : ℝ) - 1) := by
          rw [a4, hl, b4, em]
          exact (hp.map _).sum_eq
        have := mul_right_cancel₀ (by intro h; linarith) this
        exact (pow_left_inj₀ a3 b3 two_ne_zero).mp this
    have en : (dMoments qsort x).n = (dMoments qsort y).n := by rw [a1, b1, hl]
    cases h : dMoments qsort x
    cases h' : dMoments qsort y
    rw [h, h'] at em es en
    simp only at em es en
    rw [em, es, en]

/-- Another unit and another origin: the mean changes with them, the standard deviation with the unit. -/
theorem c39_moments_affine (x : List ℝ) (hn : 1 ≤ x.length) (u v : ℝ) :
    (dMoments qsort (x.map (fun a => u * a + v))).mean = u * (dMoments qsort x).mean + v ∧
      (dMoments qsort (x.map (fun a => u * a + v))).stdev = |u| * (dMoments qsort x).stdev := by
  obtain ⟨a1, a2, a3, a4⟩ := dMoments_many hq (x := x) hn
  obtain ⟨b1, b2, b3, b4⟩ := dMoments_many hq (x := x.map (fun a => u * a + v)) (by simpa using hn)
  have hl' : (1 : ℝ) ≤ (x.length : ℝ) := by exact_mod_cast hn
  rw [List.length_map] at *
  have s1 : ∀ y : List ℝ, (y.map (fun a => u * a + v)).sum = u * y.sum + y.length * v := by
    intro y
    induction y with
    | nil => simp
    | cons b y ih => rw [List.map_cons, List.sum_cons, ih, List.sum_cons, List.length_cons]; push_cast; ring
  have em : (dMoments qsort (x.map (fun a => u * a + v))).mean = u * (dMoments qsort x).mean + v := by
    apply mul_right_cancel₀ (b := (x.length : ℝ)) (by intro h; linarith)
    rw [b2, s1, ← a2]
    ring
  refine ⟨em, ?_⟩
  by_cases h1 : x.length = 1
  · obtain ⟨a, e⟩ := List.length_eq_one_iff.mp h1
    rw [e]; simp [dMoments]
  · have hl2 : (2 : ℝ) ≤ (x.length : ℝ) := by exact_mod_cast (by omega : 2 ≤ x.length)
    have s2 : ∀ (y : List ℝ) (m : ℝ), ((y.map (fun a => u * a + v)).map (fun a => (a - (u * m + v)) ^ 2)).sum =
        u ^ 2 * (y.map (fun a => (a - m) ^ 2)).sum := by
      intro y m
      induction y with
      | nil => simp
      | cons b y ih =>
        rw [List.map_cons, List.map_cons, List.sum_cons, ih, List.map_cons, List.sum_cons]; ring
    rw [em, s2, ← a4] at b4
    have : (dMoments qsort (x.map (fun a => u * a + v))).stdev ^ 2 = (|u| * (dMoments qsort x).stdev) ^ 2 := by
      apply mul_right_cancel₀ (b := (x.length : ℝ) - 1) (by intro h; linarith)
      rw [b4, mul_pow, sq_abs]
      ring
    exact (pow_left_inj₀ b3 (mul_nonneg (abs_nonneg _) a3) two_ne_zero).mp this

end

/-- The integers have the mean and the standard deviation of the numbers they are. -/
theorem c39_moments_int (isort : List Int → List Int) (hi : ∀ x, (isort x).Perm x) (qsort : List ℝ → List ℝ)
    (hq : ∀ x, (qsort x).Perm x) (x : List Int) : iMoments isort x = dMoments qsort (x.map (fun a : Int => (a : ℝ))) := by
  match x with
  | [] => rfl
  | [a] => rfl
  | a :: b :: y =>
    generalize hx : a :: b :: y = x
    have e1 : iMoments isort x = dMoments (fun l => l) ((isort x).map (fun a : Int => (a : ℝ))) := by
      have hl : 2 ≤ ((isort x).map (fun a : Int => (a : ℝ))).length := by
        rw [List.length_map, (hi x).length_eq, ← hx]; simp
      rw [show iMoments isort x = momMany ((isort x).map (fun a : Int => (a : ℝ))) by rw [← hx]; rfl]
      match (isort x).map (fun a : Int => (a : ℝ)), hl with
      | _ :: _ :: _, _ => rfl
    rw [e1, c39_moments_order (fun l => l) (fun l => List.Perm.refl l) _ _ ((hi x).map _)]
    rw [← hx]
    have hp := (hq ((a :: b :: y).map (fun a : Int => (a : ℝ))))
    show momMany _ = momMany _
    unfold momMany
    simp only [momSum_eq, momSq_eq, zero_add, hp.length_eq, hp.sum_eq, (hp.map _).sum_eq]

/-- Nothing is divided for an empty sample: all is zero. -/
theorem c39_moments_empty (qsort : List ℝ → List ℝ) (isort : List Int → List Int) :
    dMoments qsort [] = ⟨0, 0, 0⟩ ∧ iMoments isort [] = ⟨0, 0, 0⟩ := ⟨rfl, rfl⟩

theorem orderStat_mono {α : Type} {key : α → Int} {x : List α} {k k' : Nat} (hk : k ≤ k') {v w : α} (hv : OrderStat key x k v)
    (hw : OrderStat key x k' w) : key v ≤ key w := by
  by_cases h : key v ≤ key w
  · exact h
  · have : x.countP (fun a => decide (key a ≤ key w)) ≤ x.countP (fun a => decide (key a < key v)) := by
      apply List.countP_mono_left
      intro a _ ha
      simp only [decide_eq_true_eq] at *
      omega
    have := hv.2.1
    have := hw.2.2
    omega

/-- The five numbers of integers are in order (the median and the quartiles are kept doubled), so the range between the quartiles is not
negative and is within the range of the sample. -/
theorem c39_ordered {x : List Int} {s : Stats Int Int} (hn : 2 ≤ x.length) (hs : FiveNumbers intStats x s) :
    2 * s.min ≤ s.lowerQuartile ∧ s.lowerQuartile ≤ s.median ∧ s.median ≤ s.upperQuartile ∧ s.upperQuartile ≤ 2 * s.max ∧
      0 ≤ s.upperQuartile - s.lowerQuartile ∧ s.upperQuartile - s.lowerQuartile ≤ 2 * (s.max - s.min) := by
  obtain ⟨-, hm, hl, hu, -, mn, -, mx⟩ := hs
  have k : ∀ i : Int, intStats.key i = i := fun _ => rfl
  have bounds : ∀ {k0 len : Nat} {m : Int}, 1 ≤ len → MedianOf intStats x k0 len m →
      ∃ v w, OrderStat intStats.key x (k0 + (len - 1) / 2) v ∧ OrderStat intStats.key x (k0 + len / 2) w ∧ m = v + w := by
    intro k0 len m h0 h
    rcases h with ⟨h1, v, h2, rfl⟩ | ⟨h1, v, w, h2, h3, h4⟩
    · exact ⟨v, v, by rwa [show (len - 1) / 2 = len / 2 by omega], h2, by show 2 * v = v + v; omega⟩
    · refine ⟨v, w, by rwa [show k0 + (len - 1) / 2 = k0 + len / 2 - 1 by omega], h3, ?_⟩
      simp only [intStats] at h4
      split at h4
      · cases h4; rfl
      · cases h4
  obtain ⟨m1, m2, a1, a2, em⟩ := bounds (by omega) hm
  obtain ⟨l1, l2, b1, b2, el⟩ := bounds (by omega) hl
  obtain ⟨u1, u2, c1, c2, eu⟩ := bounds (by omega) hu
  have i1 := orderStat_mono (by omega) b1 a1
  have i2 := orderStat_mono (by omega) b2 a2
  have i3 := orderStat_mono (by omega) a1 c1
  have i4 := orderStat_mono (by omega) a2 c2
  have j1 := mn l1 b1.1
  have j2 := mn l2 b2.1
  have j3 := mx u1 c1.1
  have j4 := mx u2 c2.1
  simp only [k] at *
  omega

example : (dMoments (fun l => l) [1, 4, 7]).mean = 4 ∧ (dMoments (fun l => l) [1, 4, 7]).stdev = 3 := by
  have h := c39_mean (fun l => l) (fun l => List.Perm.refl l) [1, 4, 7] (by simp)
  have h' := c39_stdev (fun l => l) (fun l => List.Perm.refl l) [1, 4, 7] (by simp)
  constructor
  · have := h.2
    norm_num at this
    linarith
  · have := h'.2
    norm_num at this
    have := (pow_left_inj₀ h'.1 (by norm_num : (0 : ℝ) ≤ 3) two_ne_zero).mp (by rw [this]; norm_num)
    exact this

example : FiveNumbers intStats [5, 3, 1, 4, 2] ⟨5, 6, 3, 9, 1, 5⟩ := by
  refine ⟨rfl, .inl ⟨rfl, 3, ⟨by decide, by decide, by decide⟩, rfl⟩, .inr ⟨rfl, 1, 2, ⟨by decide, by decide, by decide⟩,
    ⟨by decide, by decide, by decide⟩, by decide⟩, .inr ⟨rfl, 4, 5, ⟨by decide, by decide, by decide⟩,
    ⟨by decide, by decide, by decide⟩, by decide⟩, by decide, by decide, by decide, by decide⟩

end Nx
