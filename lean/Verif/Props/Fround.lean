import Mathlib.Tactic.Linarith
import Mathlib.Tactic.Positivity
import Mathlib.Tactic.Ring
import Mathlib.Tactic.FieldSimp
import Mathlib.Tactic.Zify
import Verif.Model.Fround
import Verif.Spec.Fround

/-!
# Rounding to the nearest number of a format
-/

namespace Nx

theorem roundEven_le (q : Rat) : |(roundEven q : Rat) - q| ≤ 1 / 2 := by
  have h0 := Int.floor_le q
  have h1 := Int.lt_floor_add_one q
  unfold roundEven
  simp only []
  rw [abs_le]
  split
  · constructor <;> linarith
  · split
    · push_cast; constructor <;> linarith
    · split
      · constructor <;> linarith
      · push_cast; constructor <;> linarith

theorem roundEven_nearest (q : Rat) (n : Int) : |(roundEven q : Rat) - q| ≤ |(n : Rat) - q| := by
  by_cases h : n = roundEven q
  · rw [h]
  · have h1 := roundEven_le q
    have h2 : (1 : Rat) ≤ |(n : Rat) - roundEven q| := by
      have h3 : (1 : Int) ≤ |n - roundEven q| := Int.one_le_abs (sub_ne_zero.mpr h)
      have : ((1 : Int) : Rat) ≤ ((|n - roundEven q| : Int) : Rat) := Int.cast_le.mpr h3
      push_cast at this
      exact this
    have h4 : |(n : Rat) - roundEven q| ≤ |(n : Rat) - q| + |(roundEven q : Rat) - q| := by
      have := abs_sub_le (n : Rat) q (roundEven q)
      rwa [abs_sub_comm q] at this
    linarith

theorem roundEven_int (n : Int) : roundEven n = n := by
  have h := roundEven_nearest n n
  rw [sub_self, abs_zero] at h
  have := abs_eq_zero.mp (le_antisymm h (abs_nonneg _))
  have : (roundEven (n : Rat) : Rat) = n := by linarith
  exact_mod_cast this

variable {p : Nat} {emin : Int}

theorem two_zpow_pos (e : Int) : (0 : Rat) < 2 ^ e := zpow_pos (by norm_num) e

theorem zpow_split {a b : Int} (h : a ≤ b) : (2 : Rat) ^ b = ((2 ^ (b - a).toNat : Int) : Rat) * 2 ^ a := by
  obtain ⟨k, hk⟩ := Int.le.dest h
  have : (b - a).toNat = k := by omega
  rw [this, ← hk, zpow_add₀ (by norm_num), zpow_natCast, mul_comm]
  push_cast
  rfl

theorem zpow_le_zpow_two {a b : Int} (h : a ≤ b) : (2 : Rat) ^ a ≤ 2 ^ b := zpow_le_zpow_right₀ (by norm_num) h

theorem abs_lt_lastExp (p : Nat) (emin : Int) (q : Rat) : |q| < 2 ^ (lastExp p emin q + p) := by
  have h := Int.lt_zpow_succ_log_self (b := 2) (by norm_num) |q|
  refine lt_of_lt_of_le h ?_
  push_cast
  apply zpow_le_zpow_two
  unfold lastExp
  have := le_max_left (Int.log 2 |q| + 1 - (p : Int)) emin
  omega

theorem emin_le_lastExp (p : Nat) (emin : Int) (q : Rat) : emin ≤ lastExp p emin q := le_max_right _ _

theorem le_abs_lastExp {q : Rat} (hq : q ≠ 0) (h : emin < lastExp p emin q) : 2 ^ (lastExp p emin q + p - 1) ≤ |q| := by
  have h1 := Int.zpow_log_le_self (b := 2) (by norm_num) (abs_pos.mpr hq)
  have h2 : lastExp p emin q = Int.log 2 |q| + 1 - p := by
    unfold lastExp at h ⊢
    rcases max_choice (Int.log 2 |q| + 1 - (p : Int)) emin with e | e
    · exact e
    · rw [e] at h; exact absurd h (lt_irrefl _)
  rw [h2]
  have : Int.log 2 |q| + 1 - (p : Int) + p - 1 = Int.log 2 |q| := by ring
  rw [this]
  exact_mod_cast h1

/-- The error is at most half of the last digit. -/
theorem fround_err (p : Nat) (emin : Int) (q : Rat) : |fround p emin q - q| ≤ 2 ^ lastExp p emin q / 2 := by
  have hp := two_zpow_pos (lastExp p emin q)
  have h := roundEven_le (q / 2 ^ lastExp p emin q)
  have e : fround p emin q - q = ((roundEven (q / 2 ^ lastExp p emin q) : Rat) - q / 2 ^ lastExp p emin q) * 2 ^ lastExp p emin q := by
    unfold fround
    field_simp
  rw [e, abs_mul, abs_of_pos hp]
  have := mul_le_mul_of_nonneg_right h hp.le
  linarith

/-- No multiple of the last digit is nearer. -/
theorem fround_grid (p : Nat) (emin : Int) (q : Rat) (n : Int) :
    |fround p emin q - q| ≤ |(n : Rat) * 2 ^ lastExp p emin q - q| := by
  have hp := two_zpow_pos (lastExp p emin q)
  have h := roundEven_nearest (q / 2 ^ lastExp p emin q) n
  have e : fround p emin q - q = ((roundEven (q / 2 ^ lastExp p emin q) : Rat) - q / 2 ^ lastExp p emin q) * 2 ^ lastExp p emin q := by
    unfold fround
    field_simp
  have e' : (n : Rat) * 2 ^ lastExp p emin q - q = ((n : Rat) - q / 2 ^ lastExp p emin q) * 2 ^ lastExp p emin q := by
    field_simp
  rw [e, e', abs_mul, abs_mul, abs_of_pos hp]
  exact mul_le_mul_of_nonneg_right h hp.le

theorem isFloatNum_of_le {p : Nat} {emin : Int} (hp : 0 < p) {m e : Int} (hm : |m| ≤ 2 ^ p) (he : emin ≤ e) :
    IsFloatNum p emin (m * 2 ^ e) := by
  rcases lt_or_eq_of_le hm with h | h
  · exact ⟨m, e, h, he, rfl⟩
  · obtain ⟨k, rfl⟩ : ∃ k, p = k + 1 := ⟨p - 1, by omega⟩
    have h2 : (2 : Rat) ^ (e + 1) = 2 * 2 ^ e := by rw [zpow_add₀ (by norm_num), zpow_one, mul_comm]
    have hk : (2 : Int) ^ k < 2 ^ (k + 1) := by rw [pow_succ]; have : (0 : Int) < 2 ^ k := by positivity
                                                omega
    rcases abs_choice m with c | c
    · refine ⟨2 ^ k, e + 1, ?_, by omega, ?_⟩
      · rw [abs_of_pos (by positivity)]; exact hk
      · rw [h2, ← c, h, pow_succ]; push_cast; ring
    · refine ⟨-2 ^ k, e + 1, ?_, by omega, ?_⟩
      · rw [abs_neg, abs_of_pos (by positivity)]; exact hk
      · have : m = -2 ^ (k + 1) := by omega
        rw [h2, this, pow_succ]; push_cast; ring

theorem fround_isFloat (hp : 0 < p) (q : Rat) : IsFloatNum p emin (fround p emin q) := by
  refine isFloatNum_of_le hp ?_ (emin_le_lastExp p emin q)
  have hz := two_zpow_pos (lastExp p emin q)
  have h1 := abs_lt_lastExp p emin q
  rw [zpow_add₀ (by norm_num), zpow_natCast] at h1
  have h2 : |q / 2 ^ lastExp p emin q| < 2 ^ p := by
    rw [abs_div, abs_of_pos hz, div_lt_iff₀ hz, mul_comm]; exact h1
  have h3 := roundEven_le (q / 2 ^ lastExp p emin q)
  generalize q / 2 ^ lastExp p emin q = x at h2 h3 ⊢
  have h4 : |(roundEven x : Rat)| < 2 ^ p + 1 := by
    have := abs_sub_abs_le_abs_sub (roundEven x : Rat) x
    linarith
  have h5 : ((|roundEven x| : Int) : Rat) < ((2 ^ p + 1 : Int) : Rat) := by push_cast; exact h4
  have := Int.cast_lt.mp h5
  omega

theorem floatNum_on_grid {z : Rat} {e : Int} (h : ∃ m e' : Int, e ≤ e' ∧ z = m * 2 ^ e') : ∃ n : Int, z = n * 2 ^ e := by
  obtain ⟨m, e', he, rfl⟩ := h
  exact ⟨m * 2 ^ (e' - e).toNat, by rw [zpow_split he]; push_cast; ring⟩

/-- Every number of the format is a multiple of the last digit or farther away. -/
theorem fround_far {q z : Rat} (hp : 0 < p) (hz : IsFloatNum p emin z) :
    (∃ n : Int, z = n * 2 ^ lastExp p emin q) ∨ |fround p emin q - q| < |z - q| := by
  obtain ⟨m, e', hm, he', rfl⟩ := hz
  by_cases hl : lastExp p emin q ≤ e'
  · exact Or.inl (floatNum_on_grid (z := (m : Rat) * 2 ^ e') ⟨m, e', hl, rfl⟩)
  · push Not at hl
    by_cases hq : q = 0
    · by_cases h0 : (m : Rat) * 2 ^ e' = 0
      · exact Or.inl ⟨0, by rw [h0]; simp⟩
      · right
        have := fround_grid p emin q 0
        rw [hq] at this ⊢
        simp only [Int.cast_zero, zero_mul, sub_self, abs_zero] at this
        refine lt_of_le_of_lt this ?_
        rw [sub_zero]
        exact abs_pos.mpr h0
    · right
      have hle := le_abs_lastExp hq (lt_of_le_of_lt he' hl)
      obtain ⟨k, rfl⟩ : ∃ k, p = k + 1 := ⟨p - 1, by omega⟩
      set e := lastExp (k + 1) emin q with hE
      have e1 : e + ((k + 1 : Nat) : Int) - 1 = e + (k : Int) := by push_cast; ring
      rw [e1, zpow_add₀ (by norm_num), zpow_natCast] at hle
      have hzp := two_zpow_pos e'
      have hz : |(m : Rat) * 2 ^ e'| < 2 ^ e * 2 ^ k := by
        rw [abs_mul, abs_of_pos hzp]
        have h1 : |(m : Rat)| < 2 ^ (k + 1) := by
          have : ((|m| : Int) : Rat) < ((2 ^ (k + 1) : Int) : Rat) := Int.cast_lt.mpr hm
          push_cast at this
          exact this
        have h2 : (2 : Rat) ^ e' ≤ 2 ^ (e - 1) := zpow_le_zpow_two (by omega)
        have h3 : (2 : Rat) ^ (e - 1) * 2 = 2 ^ e := by
          rw [← zpow_add_one₀ (by norm_num)]; congr 1; ring
        calc |(m : Rat)| * 2 ^ e' < 2 ^ (k + 1) * 2 ^ (e - 1) := mul_lt_mul h1 h2 hzp (by positivity)
          _ = 2 ^ e * 2 ^ k := by rw [← h3, pow_succ]; ring
      rcases lt_or_gt_of_ne hq with hn | hpq
      · have g := fround_grid (k + 1) emin q (-2 ^ k)
        refine lt_of_le_of_lt g ?_
        rw [← hE]
        push_cast
        rw [abs_of_neg hn] at hle
        rw [abs_lt] at hz
        have hb : (0 : Rat) ≤ -2 ^ k * 2 ^ e - q := by linarith
        rw [abs_of_nonneg hb, lt_abs]
        left
        linarith [hz.1]
      · have g := fround_grid (k + 1) emin q (2 ^ k)
        refine lt_of_le_of_lt g ?_
        rw [← hE]
        push_cast
        rw [abs_of_pos hpq] at hle
        rw [abs_lt] at hz
        have hb : (2 : Rat) ^ k * 2 ^ e - q ≤ 0 := by linarith
        rw [abs_of_nonpos hb, lt_abs]
        right
        linarith [hz.2]

/-- The rounded number is a nearest one. -/
theorem fround_nearest (hp : 0 < p) (q : Rat) : NearestFloat p emin q (fround p emin q) := by
  refine ⟨fround_isFloat hp q, fun z hz => ?_⟩
  rcases fround_far (q := q) hp hz with ⟨n, hn⟩ | h
  · rw [hn]
    exact fround_grid p emin q n
  · exact h.le

theorem roundEven_tie {x : Rat} (h : |(roundEven x : Rat) - x| = 1 / 2) : roundEven x % 2 = 0 := by
  have h0 := Int.floor_le x
  have h1 := Int.lt_floor_add_one x
  unfold roundEven at h ⊢
  simp only [] at h ⊢
  split at h
  · rw [abs_of_nonpos (by linarith)] at h
    linarith
  · split at h
    · push_cast at h
      rw [abs_of_nonneg (by linarith)] at h
      linarith
    · rename_i c d
      rw [if_neg c, if_neg d]
      split
      · assumption
      · omega

theorem even_grid {q t : Rat} {n : Int} (ht : 0 < t) (hne : (n : Rat) * t ≠ roundEven (q / t) * t)
    (h : |(n : Rat) * t - q| = |(roundEven (q / t) : Rat) * t - q|) :
    roundEven (q / t) % 2 = 0 ∧ |(n : Rat) * t - roundEven (q / t) * t| = t := by
  obtain ⟨x, hx⟩ : ∃ x, x = q / t := ⟨_, rfl⟩
  have e2 : q = x * t := by rw [hx, div_mul_cancel₀ q ht.ne']
  rw [← hx] at hne h ⊢
  rw [e2, ← sub_mul, ← sub_mul, abs_mul, abs_mul] at h
  have h5 := mul_right_cancel₀ (abs_pos.mpr ht.ne').ne' h
  have hr := roundEven_le x
  have hnr : n ≠ roundEven x := fun c => hne (by rw [c])
  have h3 : (1 : Rat) ≤ |(n : Rat) - roundEven x| := by
    have : ((1 : Int) : Rat) ≤ ((|n - roundEven x| : Int) : Rat) := Int.cast_le.mpr (Int.one_le_abs (sub_ne_zero.mpr hnr))
    push_cast at this
    exact this
  have h4 : |(n : Rat) - roundEven x| ≤ |(n : Rat) - x| + |(roundEven x : Rat) - x| := by
    have := abs_sub_le (n : Rat) x (roundEven x)
    rwa [abs_sub_comm x] at this
  refine ⟨roundEven_tie (by linarith), ?_⟩
  have h6 : |(n : Rat) - roundEven x| = 1 := by linarith
  rw [← sub_mul, abs_mul, abs_of_pos ht, h6, one_mul]

/-- Of two nearest numbers, that with an even last digit is taken. -/
theorem fround_even (hp : 0 < p) {q z : Rat} (hz : IsFloatNum p emin z) (hne : z ≠ fround p emin q)
    (h : |z - q| = |fround p emin q - q|) :
    ∃ m e : Int, m % 2 = 0 ∧ emin ≤ e ∧ fround p emin q = m * 2 ^ e ∧ |z - fround p emin q| = 2 ^ e := by
  rcases fround_far (q := q) hp hz with ⟨n, rfl⟩ | g
  · obtain ⟨a, b⟩ := even_grid (two_zpow_pos (lastExp p emin q)) hne h
    exact ⟨_, _, a, emin_le_lastExp p emin q, rfl, b⟩
  · rw [h] at g
    exact absurd g (lt_irrefl _)

/-- Numbers of the format stay as they are. -/
theorem fround_exact (hp : 0 < p) {x : Rat} (h : IsFloatNum p emin x) : fround p emin x = x := by
  have h1 := (fround_nearest (emin := emin) hp x).2 x h
  rw [sub_self, abs_zero] at h1
  have := abs_eq_zero.mp (le_antisymm h1 (abs_nonneg _))
  linarith

/-- The order is kept. -/
theorem fround_mono (hp : 0 < p) {a b : Rat} (h : a ≤ b) : fround p emin a ≤ fround p emin b := by
  rcases eq_or_lt_of_le h with rfl | h
  · exact le_refl _
  by_contra hc
  push Not at hc
  obtain ⟨fa, na⟩ := fround_nearest (emin := emin) hp a
  obtain ⟨fb, nb⟩ := fround_nearest (emin := emin) hp b
  have h1 := na _ fb
  have h2 := nb _ fa
  generalize fround p emin a = x at *
  generalize fround p emin b = y at *
  rw [← sq_le_sq] at h1 h2
  nlinarith [mul_pos (sub_pos.mpr h) (sub_pos.mpr hc)]

/-- The relative error is at most half of a last digit, for numbers that are not tiny. -/
theorem fround_rel {q : Rat} (h : (2 : Rat) ^ (emin + p - 1) ≤ |q|) : |fround p emin q - q| ≤ |q| / 2 ^ p := by
  have h1 := fround_err p emin q
  have hq : q ≠ 0 := by
    rintro rfl
    rw [abs_zero] at h
    exact absurd h (not_le.mpr (two_zpow_pos _))
  have h2 : (2 : Rat) ^ (lastExp p emin q + p - 1) ≤ |q| := by
    rcases lt_or_eq_of_le (emin_le_lastExp p emin q) with g | g
    · exact le_abs_lastExp hq g
    · rw [← g]; exact h
  have h3 : (2 : Rat) ^ (lastExp p emin q + p - 1) = 2 ^ lastExp p emin q / 2 * 2 ^ p := by
    rw [sub_eq_add_neg, zpow_add₀ (by norm_num), zpow_add₀ (by norm_num), zpow_natCast]
    norm_num
    ring
  rw [h3] at h2
  rw [le_div_iff₀ (by positivity)]
  exact le_trans (mul_le_mul_of_nonneg_right h1 (by positivity)) h2

/-- Integers of `p` digits are numbers of the format. -/
theorem isFloatNum_int (hp : 0 < p) (he : emin ≤ 0) {n : Int} (h : |n| ≤ 2 ^ p) : IsFloatNum p emin n := by
  have := isFloatNum_of_le (emin := emin) hp h he
  rwa [zpow_zero, mul_one] at this

end Nx
