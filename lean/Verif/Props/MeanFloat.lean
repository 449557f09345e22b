import Verif.Model.MeanFloat
import Verif.Props.Fround
import Verif.Model.FastThreshold
import Mathlib.Tactic.Linarith
import Mathlib.Tactic.Ring
import Mathlib.Tactic.FieldSimp
import Mathlib.Tactic.Positivity

/-! # C149: the mean and the standard deviation in `double` -/

namespace Nx

/-! ## Rounding to `double` -/

theorem f64_mono {a b : Rat} (h : a ≤ b) : f64 a ≤ f64 b := fround_mono (by norm_num) h

theorem f64_exact {a : Rat} (h : IsFloatNum 53 (-1074) a) : f64 a = a := fround_exact (by norm_num) h

theorem f64_int {n : Int} (h : |n| ≤ 9007199254740992) : f64 n = n :=
  f64_exact (isFloatNum_int (by norm_num) (by norm_num) h)

theorem f64_zero : f64 0 = 0 := by have := f64_int (n := 0) (by norm_num); exact_mod_cast this

theorem f64_isFloat (q : Rat) : IsFloatNum 53 (-1074) (f64 q) := fround_isFloat (by norm_num) q

/-- The sum of two numbers of the format has no error below the least exponent. -/
theorem f64_add {a b : Rat} (ha : IsFloatNum 53 (-1074) a) (hb : IsFloatNum 53 (-1074) b) :
    |f64 (a + b) - (a + b)| ≤ |a + b| / 9007199254740992 := by
  by_cases h : (2 : Rat) ^ ((-1074 : Int) + (53 : Nat) - 1) ≤ |a + b|
  · have := fround_rel (p := 53) (emin := -1074) h
    norm_num at this
    exact this
  · push Not at h
    obtain ⟨m, e, -, he, rfl⟩ := ha
    obtain ⟨m', e', -, he', rfl⟩ := hb
    obtain ⟨n, hn⟩ := floatNum_on_grid (z := (m : Rat) * 2 ^ e) (e := -1074) ⟨m, e, he, rfl⟩
    obtain ⟨n', hn'⟩ := floatNum_on_grid (z := (m' : Rat) * 2 ^ e') (e := -1074) ⟨m', e', he', rfl⟩
    rw [hn, hn', ← add_mul] at h ⊢
    have hz := two_zpow_pos (-1074)
    have es : (2 : Rat) ^ ((-1074 : Int) + (53 : Nat) - 1) = 2 ^ 52 * 2 ^ (-1074 : Int) := by
      rw [show (-1074 : Int) + (53 : Nat) - 1 = ((52 : Nat) : Int) + -1074 by norm_num, zpow_add₀ (by norm_num), zpow_natCast]
    rw [es, abs_mul, abs_of_pos hz] at h
    have h1 := lt_of_mul_lt_mul_right h hz.le
    have h2 : |n + n'| < 2 ^ 52 := by exact_mod_cast h1
    have : f64 (((n : Rat) + n') * 2 ^ (-1074 : Int)) = ((n : Rat) + n') * 2 ^ (-1074 : Int) := by
      refine f64_exact ⟨n + n', -1074, lt_trans h2 (by norm_num), le_refl _, ?_⟩
      rw [Int.cast_add]
    rw [this, sub_self, abs_zero]
    positivity

/-- The error of any rounding. -/
theorem f64_err (q : Rat) : |f64 q - q| ≤ |q| / 9007199254740992 + 2 ^ (-1074 : Int) := by
  by_cases h : (2 : Rat) ^ ((-1074 : Int) + (53 : Nat) - 1) ≤ |q|
  · have := fround_rel (p := 53) (emin := -1074) h
    have e : (2 : Rat) ^ 53 = 9007199254740992 := by norm_num
    rw [e] at this
    have hz := two_zpow_pos (-1074)
    unfold f64
    linarith
  · push Not at h
    have h1 := fround_err 53 (-1074) q
    by_cases hq : q = 0
    · rw [hq, f64_zero, sub_self, abs_zero]
      have hz := two_zpow_pos (-1074)
      linarith
    have h2 : lastExp 53 (-1074) q = -1074 := by
      by_contra hc
      have h3 := emin_le_lastExp 53 (-1074) q
      have h4 := le_abs_lastExp (p := 53) (emin := -1074) hq (by omega)
      have h5 : (2 : Rat) ^ ((-1074 : Int) + (53 : Nat) - 1) ≤ 2 ^ (lastExp 53 (-1074) q + (53 : Nat) - 1) :=
        zpow_le_zpow_two (by omega)
      linarith
    rw [h2] at h1
    have hz := two_zpow_pos (-1074)
    have : 0 ≤ |q| / 9007199254740992 := by positivity
    unfold f64
    linarith

/-! ## Sums -/

theorem sumF_isFloat : ∀ (x : List Rat) {s : Rat}, IsFloatNum 53 (-1074) s → IsFloatNum 53 (-1074) (sumF x s)
  | [], _, h => h
  | _ :: x, _, _ => sumF_isFloat x (f64_isFloat _)

/-- The error grows with the square of the number of elements at most. -/
theorem sumF_error {M : Rat} (hM : 0 ≤ M) : ∀ (x : List Rat) (k : Nat) (s t : Rat), IsFloatNum 53 (-1074) s →
    (∀ a ∈ x, IsFloatNum 53 (-1074) a ∧ |a| ≤ M) → |s - t| ≤ (k : Rat) * k * (M / 9007199254740992) → |t| ≤ k * M →
    k + x.length ≤ 9007199254740992 →
    |sumF x s - (t + x.sum)| ≤ ((k + x.length : Nat) : Rat) * (k + x.length : Nat) * (M / 9007199254740992) ∧
      |t + x.sum| ≤ ((k + x.length : Nat) : Rat) * M
  | [], k, s, t, _, _, h, ht, _ => by simpa [sumF] using ⟨h, ht⟩
  | a :: x, k, s, t, hs, hx, h, ht, hk => by
    obtain ⟨fa, ba⟩ := hx a (by simp)
    rw [List.length_cons] at hk
    have hk' : (k : Rat) ≤ 9007199254740992 := by
      have : k ≤ 9007199254740992 := by omega
      exact_mod_cast this
    have hk0 : (0 : Rat) ≤ k := Nat.cast_nonneg k
    obtain ⟨u, hu⟩ : ∃ u : Rat, u = M / 9007199254740992 := ⟨_, rfl⟩
    have hMu : M = u * 9007199254740992 := by rw [hu]; ring
    have u0 : 0 ≤ u := by rw [hu]; positivity
    rw [← hu] at h
    have e1 := f64_add hs fa
    have tri : |t + a| ≤ (k + 1) * M := by
      have := abs_add_le t a
      linarith
    have e0 : |s + a - (t + a)| ≤ (k : Rat) * k * u := by rw [add_sub_add_right_eq_sub]; exact h
    have e2 : |s + a| ≤ (k + 1) * M + (k : Rat) * k * u := by
      have := abs_add_le (s + a - (t + a)) (t + a)
      rw [sub_add_cancel] at this
      linarith
    have e3 : |f64 (s + a) - (t + a)| ≤ ((k + 1 : Nat) : Rat) * (k + 1 : Nat) * u := by
      have h3 := abs_add_le (f64 (s + a) - (s + a)) (s + a - (t + a))
      rw [sub_add_sub_cancel] at h3
      have h4 : |s + a| / 9007199254740992 ≤ (k + 1) * u + (k : Rat) * k * u / 9007199254740992 := by
        have : ((k : Rat) + 1) * u = (k + 1) * M / 9007199254740992 := by rw [hMu]; ring
        rw [this, ← add_div]
        exact div_le_div_of_nonneg_right e2 (by norm_num)
      have h5 : (k : Rat) * k * u / 9007199254740992 ≤ k * u := by
        rw [div_le_iff₀ (by norm_num)]
        have : (k : Rat) * u * k ≤ k * u * 9007199254740992 := mul_le_mul_of_nonneg_left hk' (mul_nonneg hk0 u0)
        linarith
      push_cast
      linarith
    have := sumF_error hM x (k + 1) (f64 (s + a)) (t + a) (f64_isFloat _) (fun b hb => hx b (by simp [hb])) (by rw [← hu]; exact e3)
      (by push_cast; exact tri) (by omega)
    rw [sumF, List.sum_cons, List.length_cons]
    rw [show k + (x.length + 1) = k + 1 + x.length by omega, ← add_assoc]
    exact this

/-- Sums of integers are exact. -/
theorem sumF_int {B : Nat} : ∀ (x : List Int) (s : Int), (∀ a ∈ x, |a| ≤ B) → |s| + x.length * B ≤ 9007199254740992 →
    sumF (x.map (fun a : Int => (a : Rat))) s = ((s + x.sum : Int) : Rat)
  | [], s, _, _ => by simp [sumF]
  | a :: x, s, hx, h => by
    have ha := hx a (by simp)
    rw [List.length_cons] at h
    push_cast at h
    have tri := abs_add_le s a
    have h0 : (0 : Int) ≤ x.length * B := by positivity
    have e : f64 ((s : Rat) + a) = ((s + a : Int) : Rat) := by
      have := f64_int (n := s + a) (by linarith)
      rw [← this]
      push_cast
      rfl
    rw [List.map_cons, sumF, e, sumF_int x (s + a) (fun b hb => hx b (by simp [hb])) (by linarith), List.sum_cons, add_assoc]

theorem sum_bounds {lo hi : Rat} : ∀ {x : List Rat}, (∀ a ∈ x, lo ≤ a ∧ a ≤ hi) → x.length * lo ≤ x.sum ∧ x.sum ≤ x.length * hi
  | [], _ => by simp
  | a :: x, h => by
    have h1 := h a (by simp)
    have h2 := sum_bounds (x := x) (fun b hb => h b (by simp [hb]))
    rw [List.length_cons, List.sum_cons]
    push_cast
    constructor <;> linarith [h2.1, h2.2]

theorem sum_cast (x : List Int) : ((x.sum : Int) : Rat) = (x.map (fun a : Int => (a : Rat))).sum := by
  induction x with
  | nil => simp
  | cons a x ih => rw [List.sum_cons, List.map_cons, List.sum_cons, ← ih]; push_cast; rfl

/-! ## C149 -/

section

variable (sqrt : Rat → Rat)

theorem dMomentsF_mean {qsort : List Rat → List Rat} (hq : ∀ l, (qsort l).Perm l) {x : List Rat} (hn : 2 ≤ x.length) :
    (dMomentsF sqrt qsort x).mean = f64 (sumF (qsort x) 0 / x.length) := by
  match x, hn with
  | a :: b :: x, _ =>
    show f64 (sumF (qsort (a :: b :: x)) 0 / (qsort (a :: b :: x)).length) = _
    rw [(hq _).length_eq]

/-- C149: the mean differs from the exact one by one unit of the last place of the greatest element for each element at most. -/
theorem c149_error_partial {qsort : List Rat → List Rat} (hq : ∀ l, (qsort l).Perm l) {x : List Rat} {M : Rat} (hn : 1 ≤ x.length)
    (hl : x.length ≤ 2147483647) (hx : ∀ a ∈ x, IsFloatNum 53 (-1074) a ∧ |a| ≤ M) :
    |(dMomentsF sqrt qsort x).mean - x.sum / x.length| ≤ (x.length + 2) * (M / 9007199254740992) + 2 ^ (-1074 : Int) := by
  have hz := two_zpow_pos (-1074)
  have hM : 0 ≤ M := by
    match x, hn with
    | a :: x, _ => exact le_trans (abs_nonneg a) (hx a (by simp)).2
  have n1 : (1 : Rat) ≤ x.length := by exact_mod_cast hn
  rcases Nat.eq_or_lt_of_le hn with e | hn2
  · match x, e with
    | [a], _ =>
      have : (dMomentsF sqrt qsort [a]).mean - [a].sum / ([a] : List Rat).length = 0 := by
        show a - _ = _
        simp
      rw [this, abs_zero]
      positivity
  · rw [dMomentsF_mean sqrt hq hn2]
    have hp := hq x
    obtain ⟨h1, h2⟩ := sumF_error hM (qsort x) 0 0 0 ⟨0, 0, by norm_num, by norm_num, by norm_num⟩
      (fun a ha => hx a (hp.mem_iff.mp ha)) (by simp) (by simp) (by rw [hp.length_eq]; omega)
    rw [zero_add, hp.sum_eq, Nat.zero_add, hp.length_eq] at h1 h2
    obtain ⟨u, hu⟩ : ∃ u : Rat, u = M / 9007199254740992 := ⟨_, rfl⟩
    have hMu : M = u * 9007199254740992 := by rw [hu]; ring
    have u0 : 0 ≤ u := by rw [hu]; positivity
    rw [← hu] at h1 ⊢
    have nl : (x.length : Rat) ≤ 2147483647 := by exact_mod_cast hl
    obtain ⟨n, en⟩ : ∃ n : Rat, n = x.length := ⟨_, rfl⟩
    rw [← en] at h1 h2 n1 nl ⊢
    have n0 : 0 < n := by linarith
    have d1 : |sumF (qsort x) 0 / n - x.sum / n| ≤ n * u := by
      rw [← sub_div, abs_div, abs_of_pos n0, div_le_iff₀ n0]
      linarith
    have d2 : |x.sum / n| ≤ M := by
      rw [abs_div, abs_of_pos n0, div_le_iff₀ n0]
      linarith
    have d3 : |sumF (qsort x) 0 / n| ≤ M + n * u := by
      have := abs_add_le (sumF (qsort x) 0 / n - x.sum / n) (x.sum / n)
      rw [sub_add_cancel] at this
      linarith
    have d4 := f64_err (sumF (qsort x) 0 / n)
    have d5 : |sumF (qsort x) 0 / n| / 9007199254740992 ≤ 2 * u := by
      rw [div_le_iff₀ (by norm_num)]
      have : n * u ≤ 9007199254740992 * u := mul_le_mul_of_nonneg_right (by linarith) u0
      linarith
    have d6 := abs_add_le (f64 (sumF (qsort x) 0 / n) - sumF (qsort x) 0 / n) (sumF (qsort x) 0 / n - x.sum / n)
    rw [sub_add_sub_cancel] at d6
    linarith

/-- C149: the mean of one or two numbers is between all bounds of them. -/
theorem c149_two_partial {qsort : List Rat → List Rat} (hq : ∀ l, (qsort l).Perm l) {x : List Rat} {lo hi : Rat} (hn : 1 ≤ x.length)
    (hl : x.length ≤ 2) (fl : IsFloatNum 53 (-1074) lo) (fh : IsFloatNum 53 (-1074) hi)
    (hx : ∀ a ∈ x, IsFloatNum 53 (-1074) a ∧ lo ≤ a ∧ a ≤ hi) :
    lo ≤ (dMomentsF sqrt qsort x).mean ∧ (dMomentsF sqrt qsort x).mean ≤ hi := by
  rcases Nat.eq_or_lt_of_le hn with e | hn2
  · match x, e with
    | [a], _ => exact (hx a (by simp)).2
  · have e2 : x.length = 2 := by omega
    rw [dMomentsF_mean sqrt hq hn2]
    have hp := hq x
    have hb : ∀ a ∈ qsort x, IsFloatNum 53 (-1074) a ∧ lo ≤ a ∧ a ≤ hi := fun a ha => hx a (hp.mem_iff.mp ha)
    have hlen := hp.length_eq
    rw [e2] at hlen ⊢
    match hqx : qsort x, hlen with
    | [p, q], _ =>
      rw [hqx] at hb
      obtain ⟨fp, p1, p2⟩ := hb p (by simp)
      obtain ⟨-, q1, q2⟩ := hb q (by simp)
      have dbl : ∀ {a : Rat}, IsFloatNum 53 (-1074) a → IsFloatNum 53 (-1074) (2 * a) := by
        rintro a ⟨m, e, hm, he, rfl⟩
        exact ⟨m, e + 1, hm, by omega, by rw [zpow_add₀ (by norm_num), zpow_one]; ring⟩
      have es : sumF [p, q] 0 = f64 (p + q) := by
        show f64 (f64 (0 + p) + q) = _
        rw [zero_add, f64_exact fp]
      rw [es]
      have a1 := f64_mono (show 2 * lo ≤ p + q by linarith)
      have a2 := f64_mono (show p + q ≤ 2 * hi by linarith)
      rw [f64_exact (dbl fl)] at a1
      rw [f64_exact (dbl fh)] at a2
      have b1 := f64_mono (show lo ≤ f64 (p + q) / ((2 : Nat) : Rat) by push_cast; linarith)
      have b2 := f64_mono (show f64 (p + q) / ((2 : Nat) : Rat) ≤ hi by push_cast; linarith)
      rw [f64_exact fl] at b1
      rw [f64_exact fh] at b2
      exact ⟨b1, b2⟩

/-- C149: the mean of integers is the double nearest to the exact one, and between all bounds of them. -/
theorem c149_integers {qsort : List Int → List Int} (hq : ∀ l, (qsort l).Perm l) {x : List Int} (hn : 1 ≤ x.length)
    (hl : x.length ≤ 4194304) (hx : ∀ a ∈ x, InI32 a) :
    NearestFloat 53 (-1074) ((x.sum : Rat) / x.length) (iMomentsF sqrt qsort x).mean ∧
    ∀ lo hi : Int, InI32 lo → InI32 hi → (∀ a ∈ x, lo ≤ a ∧ a ≤ hi) →
      (lo : Rat) ≤ (iMomentsF sqrt qsort x).mean ∧ (iMomentsF sqrt qsort x).mean ≤ hi := by
  have i53 : ∀ {a : Int}, InI32 a → f64 a = a := by
    intro a ha
    unfold InI32 at ha
    exact f64_int (abs_le.mpr (by omega))
  have n0 : (0 : Rat) < x.length := by exact_mod_cast hn
  have e : (iMomentsF sqrt qsort x).mean = f64 ((x.sum : Rat) / x.length) := by
    match x, hn with
    | [a], _ =>
      show (a : Rat) = _
      have := i53 (hx a (by simp))
      simp [this]
    | a :: b :: x, _ =>
      have hp := hq (a :: b :: x)
      show f64 (sumF ((qsort (a :: b :: x)).map _) 0 / (((qsort (a :: b :: x)).map _).length : Nat)) = _
      have := sumF_int (B := 2147483648) (qsort (a :: b :: x)) 0 (fun c hc => by
        have := hx c (hp.mem_iff.mp hc)
        unfold InI32 at this
        rw [abs_le]
        push_cast
        omega) (by
        rw [hp.length_eq]
        simp only [abs_zero, zero_add]
        omega)
      rw [Int.cast_zero] at this
      rw [this, List.length_map, hp.length_eq, zero_add, hp.sum_eq]
  rw [e]
  refine ⟨fround_nearest (by norm_num) _, fun lo hi h1 h2 hb => ?_⟩
  have hs := sum_bounds (x := x.map (fun a : Int => (a : Rat))) (lo := lo) (hi := hi) (fun a ha => by
    obtain ⟨c, hc, rfl⟩ := List.mem_map.mp ha
    have := hb c hc
    exact ⟨by exact_mod_cast this.1, by exact_mod_cast this.2⟩)
  rw [List.length_map, ← sum_cast] at hs
  have a1 := f64_mono (show (lo : Rat) ≤ (x.sum : Rat) / x.length by rw [le_div_iff₀ n0]; linarith [hs.1])
  have a2 := f64_mono (show (x.sum : Rat) / x.length ≤ hi by rw [div_le_iff₀ n0]; linarith [hs.2])
  rw [i53 h1] at a1
  rw [i53 h2] at a2
  exact ⟨a1, a2⟩

/-- C149: equal integers have the standard deviation zero. -/
theorem c149_equal_integers (h0 : sqrt 0 = 0) {qsort : List Int → List Int} (hq : ∀ l, (qsort l).Perm l) {x : List Int} {a : Int}
    (hn : 1 ≤ x.length) (hl : x.length ≤ 4194304) (ha : InI32 a) (hx : ∀ b ∈ x, b = a) :
    (iMomentsF sqrt qsort x).mean = a ∧ (iMomentsF sqrt qsort x).stdev = 0 := by
  have hm : (iMomentsF sqrt qsort x).mean = a := by
    have := (c149_integers sqrt hq hn hl (fun b hb => by rw [hx b hb]; exact ha)).2 a a ha ha (fun b hb => by rw [hx b hb]; simp)
    exact le_antisymm this.2 this.1
  refine ⟨hm, ?_⟩
  match x, hn with
  | [b], _ => rfl
  | b :: c :: x, _ =>
    have hsq : ∀ (y : List Int), (∀ b ∈ y, b = a) → sqSumF a (y.map (fun a : Int => (a : Rat))) 0 = 0 := by
      intro y hy
      induction y with
      | nil => rfl
      | cons d y ih =>
        rw [List.map_cons, sqSumF, hy d (by simp), sub_self, f64_zero, mul_zero, f64_zero, add_zero, f64_zero]
        exact ih (fun b hb => hy b (by simp [hb]))
    show sqrt (f64 (sqSumF (iMomentsF sqrt qsort (b :: c :: x)).mean ((qsort (b :: c :: x)).map _) 0 / _)) = 0
    rw [hm, hsq _ (fun d hd => hx d ((hq _).mem_iff.mp hd)), zero_div, f64_zero, h0]

end

/-- One tenth as a `double`. -/
def tenth : Rat := 3602879701896397 / 36028797018963968

theorem tenth_float : IsFloatNum 53 (-1074) tenth := ⟨3602879701896397, -55, by norm_num, by norm_num, by unfold tenth; norm_num⟩

/-- C149 fails: the mean of three times one tenth is greater than one tenth, and their standard deviation is not zero. -/
theorem c149_equal_false (sqrt : Rat → Rat) (hs : ∀ v, 0 < v → 0 < sqrt v) {qsort : List Rat → List Rat} (hq : ∀ l, (qsort l).Perm l) :
    tenth < (dMomentsF sqrt qsort [tenth, tenth, tenth]).mean ∧ 0 < (dMomentsF sqrt qsort [tenth, tenth, tenth]).stdev := by
  have e : qsort [tenth, tenth, tenth] = [tenth, tenth, tenth] :=
    List.eq_replicate_iff.mpr ⟨(hq _).length_eq, fun b hb => by simpa using (hq _).mem_iff.mp hb⟩
  have hd : dMomentsF sqrt qsort [tenth, tenth, tenth] = momManyF sqrt [tenth, tenth, tenth] := by
    show momManyF sqrt (qsort [tenth, tenth, tenth]) = _
    rw [e]
  rw [hd]
  constructor
  · show tenth < f64 (sumF [tenth, tenth, tenth] 0 / (3 : Nat))
    decide +kernel
  · refine hs _ ?_
    show 0 < f64 (sqSumF (f64 (sumF [tenth, tenth, tenth] 0 / (3 : Nat))) [tenth, tenth, tenth] 0 / ((3 : Nat) - 1))
    decide +kernel

/-- C149: the middle of two numbers is between them and does not decrease when they grow, so the quartiles are in order. -/
theorem c149_middle {a b : Rat} (fa : IsFloatNum 53 (-1074) a) (fb : IsFloatNum 53 (-1074) b) (h : a ≤ b) :
    a ≤ midF a b ∧ midF a b ≤ b ∧ ∀ c d, a ≤ c → b ≤ d → midF a b ≤ midF c d := by
  have dbl : ∀ {a : Rat}, IsFloatNum 53 (-1074) a → IsFloatNum 53 (-1074) (2 * a) := by
    rintro a ⟨m, e, hm, he, rfl⟩
    exact ⟨m, e + 1, hm, by omega, by rw [zpow_add₀ (by norm_num), zpow_one]; ring⟩
  have a1 := f64_mono (show 2 * a ≤ a + b by linarith)
  have a2 := f64_mono (show a + b ≤ 2 * b by linarith)
  rw [f64_exact (dbl fa)] at a1
  rw [f64_exact (dbl fb)] at a2
  have b1 := f64_mono (show a ≤ f64 (a + b) / 2 by linarith)
  have b2 := f64_mono (show f64 (a + b) / 2 ≤ b by linarith)
  rw [f64_exact fa] at b1
  rw [f64_exact fb] at b2
  refine ⟨b1, b2, fun c d hc hd => f64_mono ?_⟩
  have := f64_mono (show a + b ≤ c + d by linarith)
  linarith

example : |(dMomentsF id id [tenth, tenth, tenth]).mean - tenth| ≤ 5 * (1 / 10 * (1001 / 1000) / 9007199254740992) + 2 ^ (-1074 : Int) := by
  have := c149_error_partial (M := 1 / 10 * (1001 / 1000)) id (qsort := id) (fun l => List.Perm.refl l) (x := [tenth, tenth, tenth])
    (by simp) (by simp) (fun a ha => by
      have : a = tenth := by simpa using ha
      rw [this]
      exact ⟨tenth_float, by unfold tenth; rw [abs_of_pos (by norm_num)]; norm_num⟩)
  have e : [tenth, tenth, tenth].sum / (([tenth, tenth, tenth] : List Rat).length : Rat) = tenth := by
    simp
    ring
  rw [e] at this
  have e3 : (([tenth, tenth, tenth] : List Rat).length : Rat) + 2 = 5 := by norm_num
  rw [e3] at this
  exact this

example : (iMomentsF id id [3, 3, 4]).mean = 7505999378950827 / 2251799813685248 := by decide +kernel

example : (iMomentsF id id [7, 7, 7]).mean = 7 ∧ (iMomentsF id id [7, 7, 7]).stdev = 0 :=
  c149_equal_integers id rfl (fun l => List.Perm.refl l) (by simp) (by simp) (by unfold InI32; norm_num) (by simp)

example : tenth ≤ (dMomentsF id id [tenth, 1]).mean ∧ (dMomentsF id id [tenth, 1]).mean ≤ 1 :=
  c149_two_partial id (fun l => List.Perm.refl l) (by simp) (by simp) tenth_float ⟨1, 0, by norm_num, by norm_num, by norm_num⟩ (by
    intro a ha
    have h1 : tenth ≤ 1 := by unfold tenth; norm_num
    rcases (by simpa using ha : a = tenth ∨ a = 1) with rfl | rfl
    · exact ⟨tenth_float, le_refl _, h1⟩
    · exact ⟨⟨1, 0, by norm_num, by norm_num, by norm_num⟩, h1, le_refl _⟩)

end Nx
