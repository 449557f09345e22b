import Verif.Model.KeyPos
import Verif.Model.Getline
import Verif.Props.Fround
import Verif.Spec.SiftMatch
import Verif.Spec.ImageConv
import Verif.Spec.Panorama

/-!
# Positions of keypoints on the first image of a pyramid
-/

namespace Nx

/-! ## Rounding to `float` -/

theorem f32_mono {a b : Rat} (h : a ≤ b) : f32 a ≤ f32 b := fround_mono (by norm_num) h

theorem f32_int {n : Int} (h : |n| ≤ 16777216) : f32 n = n := fround_exact (by norm_num) (isFloatNum_int (by norm_num) (by norm_num) h)

theorem f32_zero : f32 0 = 0 := by have := f32_int (n := 0) (by norm_num); exact_mod_cast this

theorem f32_nonneg {q : Rat} (h : 0 ≤ q) : 0 ≤ f32 q := by have := f32_mono h; rwa [f32_zero] at this

/-- A number and its rounded one, for numbers from one on. -/
theorem f32_rel {q : Rat} (h : 1 ≤ q) : |f32 q - q| ≤ q / 16777216 := by
  have h1 := fround_rel (p := 24) (emin := -149) (q := q) (by
    rw [abs_of_pos (by linarith)]
    refine le_trans ?_ h
    have : ((2 : Rat) ^ ((-149 : Int) + (24 : Nat) - 1)) ≤ 2 ^ (0 : Int) := zpow_le_zpow_two (by norm_num)
    rwa [zpow_zero] at this)
  rw [abs_of_pos (show 0 < q by linarith)] at h1
  norm_num at h1
  exact h1

theorem lastExp_le {q : Rat} {k : Int} (hq : q ≠ 0) (hk : -125 ≤ k) (h : |q| < 2 ^ k) : lastExp 24 (-149) q ≤ k - 24 := by
  unfold lastExp
  refine max_le ?_ (by omega)
  have g := Int.zpow_log_le_self (b := 2) (by norm_num) (abs_pos.mpr hq)
  push_cast at g ⊢
  have : Int.log 2 |q| < k := (zpow_lt_zpow_iff_right₀ (by norm_num : (1 : Rat) < 2)).mp (lt_of_le_of_lt g h)
  omega

/-- The error of numbers below a power of two. -/
theorem f32_err {q : Rat} {k : Int} (hk : -125 ≤ k) (h : |q| < 2 ^ k) : |f32 q - q| ≤ 2 ^ (k - 25) := by
  by_cases hq : q = 0
  · rw [hq, f32_zero, sub_self, abs_zero]
    exact (two_zpow_pos _).le
  · refine le_trans (fround_err 24 (-149) q) ?_
    have h1 := lastExp_le hq hk h
    have h2 : (2 : Rat) ^ (k - 24) = 2 ^ (k - 25) * 2 := by
      rw [← zpow_add_one₀ (by norm_num)]; congr 1; ring
    have h3 := zpow_le_zpow_two h1
    rw [h2] at h3
    linarith

/-- The error of all numbers, with that of numbers below one. -/
theorem f32_abs {q : Rat} (h0 : 0 ≤ q) : |f32 q - q| ≤ (q + 1) / 16777216 := by
  by_cases h : 1 ≤ q
  · have := f32_rel h
    linarith
  · push Not at h
    have h1 := f32_err (q := q) (k := 0) (by norm_num) (by rw [zpow_zero, abs_of_nonneg h0]; exact h)
    norm_num at h1
    refine le_trans h1 ?_
    linarith

/-- **C146** Rounding to `float` gives a nearest number of 24 binary digits; of two nearest ones, that with an even last digit. -/
theorem c146_nearest (q : Rat) : NearestFloat 24 (-149) q (f32 q) ∧
    ∀ z, IsFloatNum 24 (-149) z → z ≠ f32 q → |z - q| = |f32 q - q| →
      ∃ m e : Int, m % 2 = 0 ∧ -149 ≤ e ∧ f32 q = m * 2 ^ e ∧ |z - f32 q| = 2 ^ e :=
  ⟨fround_nearest (by norm_num) q, fun _ hz hne h => fround_even (by norm_num) hz hne h⟩

example : f32 16777217 = 16777216 ∧ f32 16777219 = 16777220 := by constructor <;> decide +kernel

/-- What other claims use of a rounding to `float` holds for this one. -/
theorem c146_rounding : FloatRound f32 ∧ FloatNear f32 := by
  have hi : ∀ n : Nat, n ≤ 16777216 → f32 n = n := fun n hn => by
    have := f32_int (n := n) (by rw [abs_of_nonneg (by omega)]; exact_mod_cast hn)
    exact_mod_cast this
  refine ⟨⟨fun a b h => f32_mono h, fun a => fround_exact (by norm_num) (fround_isFloat (by norm_num) a), hi⟩,
    ⟨fun a b h => f32_mono h, hi, fun x h0 h1 => ?_⟩⟩
  rcases eq_or_lt_of_le h1 with e | e
  · rw [e]
    have := hi 512 (by norm_num)
    push_cast at this
    rw [this, sub_self, abs_zero]
    norm_num
  · have := f32_err (q := x) (k := 9) (by norm_num) (by rw [abs_of_nonneg h0]; norm_num; exact e)
    norm_num at this ⊢
    exact this

/-- And what is used of the addition of `double` holds for one that is the rounded addition of numbers of the format, up to the largest
one. -/
theorem c146_added : RoundedAdd (fun a w => max a (f64 (a + w))) ((2 ^ 53 - 1) * 2 ^ 971) ∧
    ∀ a w, IsFloatNum 53 (-1074) a → 0 ≤ w → max a (f64 (a + w)) = f64 (a + w) := by
  refine ⟨⟨fun a b w h => max_le_max h (fround_mono (by norm_num) (by linarith)), fun a w _ _ => le_max_left _ _, ?_, by norm_num⟩,
    fun a w ha hw => max_eq_right ?_⟩
  · refine le_trans ?_ (le_max_right _ _)
    rw [zero_add]
    refine le_of_eq (fround_exact (by norm_num) ⟨2 ^ 53 - 1, 971, by norm_num, by norm_num, by norm_num⟩).symm
  · have := fround_mono (p := 53) (emin := -1074) (by norm_num) (show a ≤ a + w by linarith)
    rwa [fround_exact (by norm_num) ha] at this

theorem roundEven_div (n s : Nat) (hs : 0 < s) : roundEven ((n : Rat) / 2 ^ s) =
    if n % 2 ^ s > 2 ^ (s - 1) ∨ (n % 2 ^ s = 2 ^ (s - 1) ∧ n / 2 ^ s % 2 = 1) then ((n / 2 ^ s + 1 : Nat) : Int)
    else ((n / 2 ^ s : Nat) : Int) := by
  obtain ⟨k, rfl⟩ : ∃ k, s = k + 1 := ⟨s - 1, by omega⟩
  have hf : ⌊(n : Rat) / 2 ^ (k + 1)⌋ = ((n / 2 ^ (k + 1) : Nat) : Int) := by
    have := Rat.floor_natCast_div_natCast n (2 ^ (k + 1))
    push_cast at this ⊢
    exact this
  have hpk : (0 : Rat) < 2 ^ k := by positivity
  have hd : (n : Rat) / 2 ^ (k + 1) - ((n / 2 ^ (k + 1) : Nat) : Rat) = ((n % 2 ^ (k + 1) : Nat) : Rat) / 2 ^ (k + 1) := by
    have h := Nat.div_add_mod n (2 ^ (k + 1))
    have h' : ((2 ^ (k + 1) : Nat) : Rat) * ((n / 2 ^ (k + 1) : Nat) : Rat) + ((n % 2 ^ (k + 1) : Nat) : Rat) = n := by exact_mod_cast h
    generalize (n / 2 ^ (k + 1) : Nat) = a at h'
    generalize (n % 2 ^ (k + 1) : Nat) = b at h'
    rw [← h']
    push_cast
    field_simp
    ring
  have hh : ∀ r : Nat, ((r : Rat) / 2 ^ (k + 1) < 1 / 2 ↔ r < 2 ^ k) ∧ (1 / 2 < (r : Rat) / 2 ^ (k + 1) ↔ 2 ^ k < r) := fun r => by
    have e : (2 : Rat) ^ (k + 1) = 2 * ((2 ^ k : Nat) : Rat) := by push_cast; rw [pow_succ]; ring
    have hq : (0 : Rat) < ((2 ^ k : Nat) : Rat) := by push_cast; exact hpk
    have e' : (1 : Rat) / 2 = ((2 ^ k : Nat) : Rat) / 2 ^ (k + 1) := by rw [e]; field_simp
    have hz : (0 : Rat) < 2 ^ (k + 1) := by positivity
    rw [e', div_lt_div_iff_of_pos_right hz, div_lt_div_iff_of_pos_right hz, Nat.cast_lt, Nat.cast_lt]
    exact ⟨Iff.rfl, Iff.rfl⟩
  unfold roundEven
  simp only []
  rw [hf, Int.cast_natCast, hd, Nat.add_sub_cancel]
  simp only [(hh _).1, (hh _).2]
  generalize n / 2 ^ (k + 1) = a
  generalize n % 2 ^ (k + 1) = b
  generalize 2 ^ k = c
  split
  · rw [if_neg (by omega)]
  · split
    · rw [if_pos (by omega)]; push_cast; rfl
    · split
      · rw [if_neg (by omega)]
      · rw [if_pos (by omega)]; push_cast; rfl

/-- The rounding of natural numbers in the other models (`round24`) is this one. -/
theorem c146_round24 (n : Nat) : f32 n = (round24 n : Nat) := by
  unfold round24
  simp only []
  by_cases h : Nat.log2 n + 1 - 24 = 0
  · rw [if_pos h]
    have hn : n < 2 ^ 24 := lt_of_lt_of_le Nat.lt_log2_self (Nat.pow_le_pow_right (by norm_num) (by omega))
    have := f32_int (n := n) (by rw [abs_of_nonneg (by omega)]; omega)
    exact_mod_cast this
  · rw [if_neg h]
    have hl : lastExp 24 (-149) (n : Rat) = ((Nat.log2 n + 1 - 24 : Nat) : Int) := by
      unfold lastExp
      rw [abs_of_nonneg (Nat.cast_nonneg n), Int.log_natCast, ← Nat.log2_eq_log_two, max_eq_left (by omega)]
      push_cast
      omega
    unfold f32 fround
    rw [hl]
    generalize Nat.log2 n + 1 - 24 = s at h
    rw [zpow_natCast, roundEven_div n s (by omega)]
    split <;> push_cast <;> rfl

theorem lastExp_mono {v v' : Rat} (h0 : 0 < v) (h : v ≤ v') : lastExp 24 (-149) v ≤ lastExp 24 (-149) v' := by
  unfold lastExp
  rw [abs_of_pos h0, abs_of_pos (lt_of_lt_of_le h0 h)]
  have := Int.log_mono_right (b := 2) h0 h
  exact max_le_max (by omega) (le_refl _)

/-- Numbers that are one apart are not rounded to below the same integer. -/
theorem f32_step {v v' : Rat} (h0 : 0 ≤ v) (h : v + 1 ≤ v') (hb : v' < 8388608) : (⌊f32 v⌋ : Rat) + 1 ≤ f32 v' := by
  have fl : ∀ n : Int, 0 ≤ n → n ≤ 16777216 → f32 n = n := fun n a b => f32_int (by rw [abs_of_nonneg a]; exact b)
  rcases eq_or_lt_of_le h0 with e | h0
  · rw [← e, f32_zero, Int.floor_zero]
    have := f32_mono (show ((1 : Int) : Rat) ≤ v' by push_cast; linarith)
    rw [fl 1 (by norm_num) (by norm_num)] at this
    push_cast at this ⊢
    linarith
  obtain ⟨k, hk⟩ : ∃ k, k = ⌊f32 v⌋ := ⟨_, rfl⟩
  have hk0 : 0 ≤ k := by rw [hk]; exact Int.floor_nonneg.mpr (f32_nonneg h0.le)
  have hkv : (k : Rat) ≤ f32 v := by rw [hk]; exact Int.floor_le _
  have hk1 : k ≤ 8388608 := by
    have := f32_mono (show v ≤ ((8388608 : Int) : Rat) by push_cast; linarith)
    rw [fl 8388608 (by norm_num) (by norm_num)] at this
    have : (k : Rat) ≤ ((8388608 : Int) : Rat) := le_trans hkv this
    exact_mod_cast this
  rw [← hk]
  by_contra hc
  push Not at hc
  have fk := fl k hk0 (by omega)
  have fk1 := fl (k + 1) (by omega) (by omega)
  push_cast at fk1
  have hv' : v' < k + 1 := by
    by_contra g
    push Not at g
    have := f32_mono g
    rw [fk1] at this
    linarith
  have hvk : v < k := by linarith
  have ev : f32 v = k := le_antisymm (by have := f32_mono hvk.le; rwa [fk] at this) hkv
  have hne : v' ≠ 0 := by linarith
  have habs : |v'| < 2 ^ (23 : Int) := by rw [abs_of_pos (by linarith)]; norm_num; exact hb
  -- the multiple of the last digit one below the rounded number
  have hg : |f32 v - v| ≤ |(f32 v' - 1) - v| := by
    have he := lastExp_mono h0 (show v ≤ v' by linarith)
    have hle := lastExp_le hne (by norm_num) habs
    obtain ⟨n, hn⟩ := floatNum_on_grid (z := f32 v') (e := lastExp 24 (-149) v) ⟨_, _, he, rfl⟩
    obtain ⟨n1, hn1⟩ := floatNum_on_grid (z := (1 : Rat)) (e := lastExp 24 (-149) v) ⟨1, 0, by omega, by simp⟩
    have := fround_grid 24 (-149) v (n - n1)
    push_cast at this
    rw [sub_mul, ← hn, ← hn1] at this
    exact this
  have hz : IsFloatNum 24 (-149) ((k : Rat) + 1) := by
    have := isFloatNum_int (p := 24) (emin := -149) (n := k + 1) (by norm_num) (by norm_num) (by rw [abs_of_nonneg (by omega)]; omega)
    push_cast at this
    exact this
  have hn := (fround_nearest (p := 24) (emin := -149) (by norm_num) v').2 _ hz
  change |f32 v' - v'| ≤ _ at hn
  rw [ev, abs_of_pos (by linarith)] at hg
  rw [abs_of_pos (show (0 : Rat) < (k : Rat) + 1 - v' by linarith)] at hn
  have hn' := (abs_le.mp hn).1
  have hg' : (k : Rat) - v ≤ -(f32 v' - 1 - v) := by
    rcases le_abs.mp hg with g | g
    · linarith
    · exact g
  have hv1 : v' = v + 1 := by linarith
  have hfv : f32 v' = 2 * v' - (k + 1) := by linarith
  obtain ⟨m, e, hm, -, hme, hd⟩ := fround_even (p := 24) (emin := -149) (q := v') (by norm_num) hz (by
    change (k : Rat) + 1 ≠ f32 v'
    linarith) (by
    change |(k : Rat) + 1 - v'| = |f32 v' - v'|
    rw [hfv, abs_of_pos (by linarith), abs_of_neg (by linarith)]
    ring)
  change f32 v' = _ at hme
  change |(k : Rat) + 1 - f32 v'| = _ at hd
  rw [abs_of_pos (by linarith)] at hd
  have herr := f32_err (q := v') (k := 23) (by norm_num) habs
  have he1 : e ≤ -1 := by
    have h1 : (2 : Rat) ^ e ≤ 2 ^ (-1 : Int) := by
      rw [← hd]
      norm_num at herr ⊢
      have := (abs_le.mp herr).1
      linarith
    exact (zpow_le_zpow_iff_right₀ (by norm_num : (1 : Rat) < 2)).mp h1
  obtain ⟨j, hj⟩ : ∃ j : Nat, e = -(j : Int) - 1 := ⟨(-e - 1).toNat, by omega⟩
  have hp : (2 : Rat) ^ (j + 1) * 2 ^ e = 1 := by
    rw [hj, ← zpow_natCast, ← zpow_add₀ (by norm_num)]
    push_cast
    simp
  have hz2 : ((k : Rat) + 1) * 2 ^ (j + 1) = m + 1 := by
    have h1 : (k : Rat) + 1 = (m + 1) * 2 ^ e := by rw [add_mul, ← hme]; linarith
    rw [h1, mul_assoc, mul_comm ((2 : Rat) ^ e), hp, mul_one]
  have hz3 : (k + 1) * 2 ^ (j + 1) = m + 1 := by exact_mod_cast hz2
  rw [pow_succ, ← mul_assoc] at hz3
  omega

/-! ## Positions -/

theorem ratTrunc_int (n : Int) : ratTrunc n = n := by
  unfold ratTrunc
  split
  · rw [← Int.cast_neg]
    rw [Rat.floor_intCast]
    omega
  · exact Rat.floor_intCast n

theorem trunc_floor {q : Rat} (h : 0 ≤ q) : ratTrunc q = ⌊q⌋ := by
  unfold ratTrunc
  rw [if_neg (not_lt.mpr h)]
  rfl

theorem floatToInt_ok {q : Rat} (h0 : 0 ≤ q) (h1 : q < 2147483648) : floatToInt q = .ok ⌊q⌋ := by
  unfold floatToInt
  rw [trunc_floor h0, if_pos]
  have a : 0 ≤ ⌊q⌋ := Int.floor_nonneg.mpr h0
  have b : ⌊q⌋ < 2147483648 := Int.floor_lt.mpr (by exact_mod_cast h1)
  unfold InI32
  omega

/-- **C146** The first level, of scale one, has the size of the image up to 2 to the 24. -/
theorem c146_first {w : Int} (h0 : 0 ≤ w) (h1 : w ≤ 16777216) : levelLength w 1 = .ok w := by
  have e := f32_int (n := w) (by rw [abs_of_nonneg h0]; exact h1)
  unfold levelLength
  rw [if_neg one_ne_zero, div_one, e, e, floatToInt_ok (by exact_mod_cast h0), Int.floor_intCast]
  exact_mod_cast (by omega : w < 2147483648)

example : levelLength 640 1 = .ok 640 := c146_first (by norm_num) (by norm_num)

/-- **C146** It is false for all sizes: the level may be smaller or larger than the image. -/
theorem c146_first_false : levelLength 16777217 1 = .ok 16777216 ∧ levelLength 16777219 1 = .ok 16777220 := by
  constructor <;> decide +kernel

/-- The length of a level in terms of exact numbers. -/
theorem levelLength_spec {w : Int} {s : Rat} (hw0 : 0 ≤ w) (hw : w ≤ 16777216) (hs : 1 ≤ s) :
    levelLength w s = .ok ⌊f32 (w / s)⌋ ∧ f32 (w / s) ≤ w := by
  have e := f32_int (n := w) (by rw [abs_of_nonneg hw0]; exact hw)
  have hwr : (0 : Rat) ≤ w := by exact_mod_cast hw0
  have hd : (w : Rat) / s ≤ w := div_le_self hwr hs
  have h1 : f32 (w / s) ≤ w := by have := f32_mono hd; rwa [e] at this
  refine ⟨?_, h1⟩
  unfold levelLength
  rw [if_neg (by linarith), e]
  refine floatToInt_ok (f32_nonneg (div_nonneg hwr (by linarith))) (lt_of_le_of_lt h1 ?_)
  exact_mod_cast (by omega : w < 2147483648)

/-- The levels that are not larger than the image have a length. -/
theorem c146_length {w : Int} {s : Rat} (hw0 : 0 ≤ w) (hw : w ≤ 16777216) (hs : 1 ≤ s) :
    ∃ l, levelLength w s = .ok l ∧ 0 ≤ l ∧ l ≤ w ∧ |(l : Rat) - w / s| < 1 + (w / s + 1) / 16777216 := by
  obtain ⟨e, h⟩ := levelLength_spec hw0 hw hs
  have hd : (0 : Rat) ≤ w / s := div_nonneg (by exact_mod_cast hw0) (by linarith)
  have ha := f32_abs hd
  have hn := f32_nonneg hd
  generalize f32 (w / s) = y at e h ha hn
  refine ⟨_, e, Int.floor_nonneg.mpr hn, ?_, ?_⟩
  · have : ((⌊y⌋ : Int) : Rat) ≤ w := le_trans (Int.floor_le _) h
    exact_mod_cast this
  · have f1 := Int.floor_le y
    have f2 := Int.lt_floor_add_one y
    rw [abs_le] at ha
    rw [abs_lt]
    constructor <;> linarith [ha.1, ha.2]

theorem inside_bound {w l s x : Rat} (hw : w ≤ 4194304) (hs : 1 ≤ s) (hl : l ≤ w / s + (w / s + 1) / 16777216)
    (hx : x ≤ l - 1) : x * s + (x * s + 1) / 16777216 < w := by
  have hsp : 0 < s := by linarith
  have hq : w / s * s = w := div_mul_cancel₀ w hsp.ne'
  have h1 : x * s ≤ (w / s + (w / s + 1) / 16777216 - 1) * s := mul_le_mul_of_nonneg_right (by linarith) hsp.le
  have h2 : (w / s + (w / s + 1) / 16777216 - 1) * s = w + (w + s) / 16777216 - s := by
    have : (w / s + (w / s + 1) / 16777216 - 1) * s = w / s * s + (w / s * s + s) / 16777216 - s := by ring
    rw [this, hq]
  rw [h2] at h1
  nlinarith

/-- **C146** Every pixel of a level that is not larger than the image is on the image, and so is every point between the pixels. -/
theorem c146_inside {w l : Int} {s : Rat} (hw0 : 0 ≤ w) (hw : w ≤ 4194304) (hs : 1 ≤ s) (hl : levelLength w s = .ok l) :
    (∀ x : Int, 0 ≤ x → x < l → ∃ k, keyPos0 x s = .ok k ∧ 0 ≤ k ∧ k < w) ∧
    ∀ xs : Rat, 0 ≤ xs → xs ≤ l - 1 → 0 ≤ keySub0 xs s ∧ keySub0 xs s < w := by
  obtain ⟨e, -⟩ := levelLength_spec hw0 (by omega) hs
  have hd : (0 : Rat) ≤ w / s := div_nonneg (by exact_mod_cast hw0) (by linarith)
  have hb : (l : Rat) ≤ w / s + (w / s + 1) / 16777216 := by
    rw [e] at hl
    injection hl with hl
    have ha := f32_abs hd
    rw [abs_le] at ha
    rw [← hl]
    have := Int.floor_le (f32 (w / s))
    linarith [ha.2]
  have hwr : (w : Rat) ≤ 4194304 := by exact_mod_cast hw
  have key : ∀ xs : Rat, 0 ≤ xs → xs ≤ l - 1 → 0 ≤ f32 (xs * s) ∧ f32 (xs * s) < w := fun xs h0 h1 => by
    have h2 := inside_bound hwr hs hb h1
    have hn : 0 ≤ xs * s := mul_nonneg h0 (by linarith)
    have ha := f32_abs hn
    rw [abs_le] at ha
    exact ⟨f32_nonneg hn, by linarith [ha.2]⟩
  refine ⟨fun x h0 h1 => ?_, key⟩
  have hlw : l ≤ w := by
    obtain ⟨l', el, -, h, -⟩ := c146_length hw0 (by omega) hs
    rw [hl] at el
    injection el with el
    omega
  have ex := f32_int (n := x) (by rw [abs_of_nonneg h0]; omega)
  obtain ⟨k0, k1⟩ := key x (by exact_mod_cast h0) (by
    have : x + 1 ≤ l := h1
    have : ((x + 1 : Int) : Rat) ≤ l := by exact_mod_cast this
    push_cast at this
    linarith)
  refine ⟨⌊f32 (x * s)⌋, ?_, Int.floor_nonneg.mpr k0, Int.floor_lt.mpr k1⟩
  unfold keyPos0
  rw [ex]
  exact floatToInt_ok k0 (lt_of_lt_of_le k1 (by linarith))

example : ∃ l, levelLength 640 (11 / 8) = .ok l ∧ ∀ x : Int, 0 ≤ x → x < l → ∃ k, keyPos0 x (11 / 8) = .ok k ∧ 0 ≤ k ∧ k < 640 := by
  obtain ⟨l, e, -⟩ := c146_length (w := 640) (s := 11 / 8) (by norm_num) (by norm_num) (by norm_num)
  exact ⟨l, e, (c146_inside (by norm_num) (by norm_num) (by norm_num) e).1⟩

/-- **C146** Different pixels of such a level have different positions, in the same order. -/
theorem c146_distinct {x x' k k' : Int} {s : Rat} (h0 : 0 ≤ x) (hx : x < x') (hx' : x' ≤ 8388608) (hs : 1 ≤ s)
    (hb : x' * s < 8388608) (e : keyPos0 x s = .ok k) (e' : keyPos0 x' s = .ok k') : k < k' := by
  have hsp : 0 ≤ s := by linarith
  have r0 : (0 : Rat) ≤ x := by exact_mod_cast h0
  have r1 : (x : Rat) + 1 ≤ x' := by exact_mod_cast hx
  have hn : 0 ≤ (x : Rat) * s := mul_nonneg r0 hsp
  have hstep : (x : Rat) * s + 1 ≤ x' * s := by nlinarith
  have fb : f32 ((x' : Rat) * s) ≤ 8388608 := by
    have := f32_mono (show (x' : Rat) * s ≤ ((8388608 : Int) : Rat) by push_cast; linarith)
    rwa [f32_int (by norm_num)] at this
  have fb0 : f32 ((x : Rat) * s) ≤ 8388608 := le_trans (f32_mono (by linarith)) fb
  unfold keyPos0 at e e'
  rw [f32_int (by rw [abs_of_nonneg h0]; omega), floatToInt_ok (f32_nonneg hn) (by linarith)] at e
  rw [f32_int (by rw [abs_of_nonneg (by omega)]; omega), floatToInt_ok (f32_nonneg (by linarith)) (by linarith)] at e'
  injection e with e
  injection e' with e'
  have := f32_step hn hstep hb
  rw [e] at this
  have : k + 1 ≤ ⌊f32 ((x' : Rat) * s)⌋ := Int.le_floor.mpr (by push_cast; exact this)
  omega

example {k k' : Int} (e : keyPos0 3 (11 / 8) = .ok k) (e' : keyPos0 4 (11 / 8) = .ok k') : k < k' :=
  c146_distinct (by norm_num) (by norm_num) (by norm_num) (by norm_num) (by norm_num) e e'

example : keyPos0 3 (11 / 8) = .ok 4 ∧ keyPos0 4 (11 / 8) = .ok 5 := by constructor <;> decide +kernel

/-- **C146** It is false on levels that are larger than the image. -/
theorem c146_distinct_false : keyPos0 2 (1 / 2) = keyPos0 3 (1 / 2) := by decide +kernel

/-- **C146** It is false for images of other sizes, even on the first level, and on levels that are larger than the image. -/
theorem c146_inside_false :
    (levelLength 16777219 1 = .ok 16777220 ∧ keyPos0 16777219 1 = .ok 16777220) ∧
    (levelLength 1048576 (8388609 / 8589934592) = .ok 1073741696 ∧ keyPos0 1073741695 (8388609 / 8589934592) = .ok 1048576) := by
  refine ⟨⟨?_, ?_⟩, ?_, ?_⟩ <;> decide +kernel

/-- **C146** The order of the pixels is kept. -/
theorem c146_order {x x' k k' : Int} {s : Rat} (hs : 0 ≤ s) (h : x ≤ x') (e : keyPos0 x s = .ok k) (e' : keyPos0 x' s = .ok k') :
    k ≤ k' := by
  unfold keyPos0 floatToInt at e e'
  split at e
  · split at e'
    · injection e with e
      injection e' with e'
      subst e e'
      have hf : f32 (f32 x * s) ≤ f32 (f32 x' * s) :=
        f32_mono (mul_le_mul_of_nonneg_right (f32_mono (by exact_mod_cast h)) hs)
      generalize f32 (f32 x * s) = a at hf
      generalize f32 (f32 x' * s) = b at hf
      unfold ratTrunc
      split
      · split
        · have := Rat.floor_monotone (show -b ≤ -a by linarith)
          omega
        · have h1 : 0 ≤ (-a).floor := show 0 ≤ ⌊-a⌋ from Int.floor_nonneg.mpr (by linarith)
          have h2 : 0 ≤ b.floor := show 0 ≤ ⌊b⌋ from Int.floor_nonneg.mpr (by linarith)
          omega
      · rw [if_neg (by linarith)]
        exact Rat.floor_monotone hf
    · cases e'
  · cases e

/-- **C146** On the levels of pyramids that halve the sizes, the sizes and the positions are exact, whatever is lost at the border; points
between the pixels are exact if they have 24 digits. -/
theorem c146_halved {w : Int} {i : Nat} (hw0 : 0 ≤ w) (hw : w ≤ 16777216) (hi : i ≤ 100) :
    levelLength w (2 ^ i) = .ok (w / 2 ^ i) ∧
    (∀ x, 0 ≤ x → x < w / 2 ^ i → keyPos0 x (2 ^ i) = .ok (x * 2 ^ i) ∧ x * 2 ^ i < w) ∧
    ∀ xs, IsFloatNum 24 (-149) xs → keySub0 xs (2 ^ i) = xs * 2 ^ i := by
  have hp : (0 : Rat) < 2 ^ i := by positivity
  have hpi : (0 : Int) < 2 ^ i := by positivity
  have h1 : (1 : Rat) ≤ 2 ^ i := one_le_pow₀ (by norm_num)
  obtain ⟨el, -⟩ := levelLength_spec hw0 hw h1
  have hwf : f32 (w / 2 ^ i) = w / 2 ^ i := by
    refine fround_exact (by norm_num) ?_
    have := isFloatNum_of_le (p := 24) (emin := -149) (by norm_num) (m := w) (e := -(i : Int)) (by rw [abs_of_nonneg hw0]; exact hw)
      (by omega)
    rwa [zpow_neg, zpow_natCast, ← div_eq_mul_inv] at this
  refine ⟨?_, fun x h0 hx => ?_, fun xs hxs => ?_⟩
  · rw [el, hwf]
    have := Rat.floor_intCast_div_natCast w (2 ^ i)
    push_cast at this
    rw [this]
  · have hxw : x * 2 ^ i < w := by
      have a := Int.lt_iff_add_one_le.mp hx
      have b := Int.mul_le_mul_of_nonneg_right a hpi.le
      have c := Int.ediv_mul_le w hpi.ne'
      rw [Int.add_mul, Int.one_mul] at b
      omega
    have hxx : x ≤ x * 2 ^ i := by
      have : (1 : Int) ≤ 2 ^ i := hpi
      nlinarith
    refine ⟨?_, hxw⟩
    have e1 := f32_int (n := x) (by rw [abs_of_nonneg h0]; omega)
    have e2 := f32_int (n := x * 2 ^ i) (by rw [abs_of_nonneg (by omega)]; omega)
    push_cast at e2
    unfold keyPos0
    rw [e1, e2, floatToInt_ok (mul_nonneg (by exact_mod_cast h0) hp.le)]
    · have : ((x : Rat) * 2 ^ i) = ((x * 2 ^ i : Int) : Rat) := by push_cast; rfl
      rw [this, Int.floor_intCast]
    · have : ((x * 2 ^ i : Int) : Rat) < 2147483648 := by exact_mod_cast (by omega : x * 2 ^ i < 2147483648)
      push_cast at this
      exact this
  · obtain ⟨m, e, hm, he, rfl⟩ := hxs
    refine fround_exact (by norm_num) ⟨m, e + i, hm, by omega, ?_⟩
    rw [zpow_add₀ (by norm_num), zpow_natCast, mul_assoc]

example : levelLength 641 (2 ^ 3) = .ok 80 ∧ keyPos0 79 (2 ^ 3) = .ok 632 := by
  obtain ⟨a, b, -⟩ := c146_halved (w := 641) (i := 3) (by norm_num) (by norm_num) (by norm_num)
  exact ⟨a, (b 79 (by norm_num) (by norm_num)).1⟩

end Nx
