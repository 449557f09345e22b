import Verif.Model.ScaleFloat
import Verif.Spec.ScaleFloat
import Verif.Props.GrayFloat
import Verif.Props.Warp
import Mathlib.Tactic.IntervalCases

/-! # C148: scaling images down in `float` -/

namespace Nx

/-! ## Sizes and positions -/

theorem f32_nat {n : Nat} (h : n ≤ 16777216) : f32 n = n := by
  have := f32_int (n := (n : Int)) (by rw [abs_of_nonneg (by omega)]; omega)
  exact_mod_cast this

/-- The largest `float` below one. -/
theorem float_lt_one {s : Rat} (hf : IsFloatNum 24 (-149) s) (h1 : s < 1) : s ≤ 1 - 1 / 16777216 := by
  obtain ⟨m, e, hm, he, rfl⟩ := hf
  by_contra hc
  push Not at hc
  by_cases h : -24 ≤ e
  · obtain ⟨n, hn⟩ := floatNum_on_grid (z := (m : Rat) * 2 ^ e) (e := -24) ⟨m, e, h, rfl⟩
    rw [hn] at h1 hc
    have e1 : (2 : Rat) ^ (-24 : Int) = 1 / 16777216 := by norm_num
    rw [e1] at h1 hc
    have a : (n : Rat) < 16777216 := by linarith
    have b : (16777215 : Rat) < n := by linarith
    have a' : n < 16777216 := by exact_mod_cast a
    have b' : 16777215 < n := by exact_mod_cast b
    omega
  · have h2 : (2 : Rat) ^ e ≤ 2 ^ (-25 : Int) := zpow_le_zpow_two (by omega)
    have h3 : (m : Rat) ≤ 16777216 := by
      have : m < 2 ^ 24 := lt_of_le_of_lt (le_abs_self m) hm
      have : m ≤ 16777216 := by norm_num at this; omega
      exact_mod_cast this
    have h4 := two_zpow_pos e
    have e1 : (2 : Rat) ^ (-25 : Int) = 1 / 33554432 := by norm_num
    rw [e1] at h2
    have : (m : Rat) * 2 ^ e ≤ 16777216 * (1 / 33554432) :=
      le_trans (mul_le_mul_of_nonneg_right h3 h4.le) (mul_le_mul_of_nonneg_left h2 (by norm_num))
    norm_num at this hc
    linarith

theorem small_num : (2 : Rat) ^ (-126 : Int) ≤ 1 / 2 := by norm_num

theorem f32_small {q : Rat} (h : q ≤ 1 / 2) : f32 q ≤ 1 / 2 := by
  have := f32_mono h
  have e : f32 (1 / 2) = 1 / 2 := fround_exact (by norm_num) ⟨1, -1, by norm_num, by norm_num, by norm_num⟩
  rwa [e] at this

/-- The length of a line of the result. -/
theorem scaleLenF_spec {w : Nat} {s : Rat} (hw : w ≤ 16777216) (hf : IsFloatNum 24 (-149) s) (h0 : 0 < s) (h1 : s < 1) :
    ∃ n : Nat, scaleLenF w s = .ok n ∧ ScaledLen w s n ∧ (w = 0 ∨ n < w) ∧ (n : Rat) ≤ f32 (w * s) := by
  have w0 : (0 : Rat) ≤ w := Nat.cast_nonneg w
  have hp : (0 : Rat) ≤ w * s := mul_nonneg w0 h0.le
  have hv := f32_nonneg hp
  have s1 := float_lt_one hf h1
  have hlt : w = 0 ∨ f32 (w * s) < w := by
    rcases Nat.eq_zero_or_pos w with e | hpos
    · exact Or.inl e
    · right
      have w1 : (1 : Rat) ≤ w := by exact_mod_cast hpos
      by_cases hs : (w : Rat) * s ≤ 1 / 2
      · have := f32_small hs
        linarith
      · push Not at hs
        have := (abs_le.mp (f32_rel_small (le_trans small_num hs.le))).2
        have h2 : (w : Rat) * s ≤ w * (1 - 1 / 16777216) := mul_le_mul_of_nonneg_left s1 w0
        nlinarith
  have hle : f32 (w * s) ≤ w := by
    rcases hlt with e | h
    · subst e
      simp [f32_zero]
    · exact h.le
  have fl0 : 0 ≤ ⌊f32 (w * s)⌋ := Int.floor_nonneg.mpr hv
  have flw : ⌊f32 (w * s)⌋ ≤ w := by
    have : f32 (w * s) ≤ ((w : Int) : Rat) := by push_cast; exact hle
    have := Int.floor_le_floor this
    rwa [Int.floor_intCast] at this
  have cast : ((⌊f32 (w * s)⌋.toNat : Nat) : Rat) = (⌊f32 (w * s)⌋ : Rat) := by
    have : ((⌊f32 (w * s)⌋.toNat : Nat) : Int) = ⌊f32 (w * s)⌋ := by omega
    exact_mod_cast this
  refine ⟨⌊f32 (w * s)⌋.toNat, ?_, ⟨?_, ?_⟩, ?_, by rw [cast]; exact Int.floor_le _⟩
  · unfold scaleLenF truncInt
    rw [f32_nat hw, ratTrunc_nonneg hv, if_pos (by unfold InI32; omega)]
    congr 1
    omega
  · rw [cast]
    have := Int.floor_le (f32 (w * s))
    by_cases hs : (w : Rat) * s ≤ 1 / 2
    · have a := f32_small hs
      have : ⌊f32 (w * s)⌋ ≤ 0 := by
        rw [Int.floor_le_iff]
        push_cast
        linarith
      have : (⌊f32 (w * s)⌋ : Rat) ≤ 0 := by exact_mod_cast this
      nlinarith
    · push Not at hs
      have := (abs_le.mp (f32_rel_small (le_trans small_num hs.le))).2
      linarith
  · rw [cast]
    have := Int.lt_floor_add_one (f32 (w * s))
    by_cases hs : (w : Rat) * s ≤ 1 / 2
    · nlinarith
    · push Not at hs
      have := (abs_le.mp (f32_rel_small (le_trans small_num hs.le))).1
      linarith
  · rcases hlt with e | h
    · exact Or.inl e
    · right
      have : ⌊f32 (w * s)⌋ < w := by
        rw [Int.floor_lt]
        exact_mod_cast h
      omega

/-- The arithmetic of the last position. -/
theorem last_pos {w n x : Nat} {t p : Rat} (hw : w ≤ 2361 ∧ n < w ∨ w ≤ 2761 ∧ n + 1 < w) (hx : x < n) (ht : (n : Rat) * t ≤ w * (1 + 1 / 16777216))
    (ht0 : 0 < t) (hp : p ≤ x * (t * (1 + 1 / 16777216)) * (1 + 1 / 16777216)) : p < (w : Rat) - 1 := by
  have hN : (n : Rat) + 1 ≤ w := by
    have : n + 1 ≤ w := by omega
    exact_mod_cast this
  have hX : (x : Rat) + 1 ≤ n := by exact_mod_cast hx
  have hx0 : (0 : Rat) ≤ x := Nat.cast_nonneg x
  have n0 : (0 : Rat) < n := by linarith
  obtain ⟨c, hc⟩ : ∃ c : Rat, c = (1 + 1 / 16777216) * (1 + 1 / 16777216) * (1 + 1 / 16777216) := ⟨_, rfl⟩
  have hc1 : c ≤ 1 + 179 / 1000000000 := by rw [hc]; norm_num
  have hc0 : 1 ≤ c := by rw [hc]; norm_num
  have h1 : p ≤ (n - 1) * t * ((1 + 1 / 16777216) * (1 + 1 / 16777216)) := by
    refine le_trans hp ?_
    have : (x : Rat) * t ≤ (n - 1) * t := mul_le_mul_of_nonneg_right (by linarith) ht0.le
    nlinarith
  have h2 : n * p ≤ (n - 1) * (w * c) := by
    have a : n * p ≤ (n - 1) * (n * t) * ((1 + 1 / 16777216) * (1 + 1 / 16777216)) := by
      have := mul_le_mul_of_nonneg_left h1 n0.le
      nlinarith
    have b : ((n : Rat) - 1) * (n * t) ≤ (n - 1) * (w * (1 + 1 / 16777216)) := mul_le_mul_of_nonneg_left ht (by linarith)
    rw [hc]
    nlinarith
  by_contra hcon
  push Not at hcon
  have h3 : (n : Rat) * (w - 1) ≤ (n - 1) * (w * c) := le_trans (mul_le_mul_of_nonneg_left hcon n0.le) h2
  obtain ⟨k, hk⟩ : ∃ k : Rat, k = c - 1 := ⟨_, rfl⟩
  have hc' : c = 1 + k := by linarith
  rw [hc'] at h3
  have hk1 : k ≤ 179 / 1000000000 := by linarith
  have hk0 : 0 ≤ k := by linarith
  have h4 : (w : Rat) ≤ n + (n - 1) * (w * k) := by linarith
  rcases hw with ⟨hw, -⟩ | ⟨hw, hn⟩
  · have hW : (w : Rat) ≤ 2361 := by exact_mod_cast hw
    have h5 : (n - 1) * ((w : Rat) * k) ≤ 2361 * (2361 * (179 / 1000000000)) :=
      mul_le_mul (by linarith) (mul_le_mul hW hk1 hk0 (by norm_num)) (by positivity) (by norm_num)
    norm_num at h5
    linarith
  · have hW : (w : Rat) ≤ 2761 := by exact_mod_cast hw
    have hN2 : (n : Rat) + 2 ≤ w := by exact_mod_cast hn
    have h5 : (n - 1) * ((w : Rat) * k) ≤ 2761 * (2761 * (179 / 1000000000)) :=
      mul_le_mul (by linarith) (mul_le_mul hW hk1 hk0 (by norm_num)) (by positivity) (by norm_num)
    norm_num at h5
    linarith

/-- The least scale, in units of 1/16777216, that gives a line of one sample less than `w`. -/
def leastScale (w : Nat) : Nat := ((8192 * (w - 1) - 1) * 2048 + w - 1) / w

/-- A table of the widths that are not covered by `last_pos`. -/
theorem leastScale_table : ∀ i : Fin 400, 0 < leastScale (2362 + i) ∧
    f32 (((2362 + i : Nat) : Rat) * (((leastScale (2362 + i) : Rat) - 1) / 16777216)) < ((2361 + i : Nat) : Rat) ∧
    f32 (((2360 + i : Nat) : Rat) * f32 (16777216 / (leastScale (2362 + i) : Rat))) < ((2361 + i : Nat) : Rat) := by
  decide +kernel

/-- The `float`s from one half to one are multiples of 1/16777216. -/
theorem float_half {s : Rat} (hf : IsFloatNum 24 (-149) s) (h : 1 / 2 ≤ s) : ∃ j : Int, s = j / 16777216 := by
  obtain ⟨m, e, hm, he, rfl⟩ := hf
  by_cases hc : -24 ≤ e
  · obtain ⟨n, hn⟩ := floatNum_on_grid (z := (m : Rat) * 2 ^ e) (e := -24) ⟨m, e, hc, rfl⟩
    refine ⟨n, ?_⟩
    rw [hn]
    have e1 : (2 : Rat) ^ (-24 : Int) = 1 / 16777216 := by norm_num
    rw [e1]
    ring
  · exfalso
    have h2 : (2 : Rat) ^ e ≤ 2 ^ (-25 : Int) := zpow_le_zpow_two (by omega)
    have h3 : (m : Rat) ≤ 16777215 := by
      have : m < 2 ^ 24 := lt_of_le_of_lt (le_abs_self m) hm
      have : m ≤ 16777215 := by norm_num at this; omega
      exact_mod_cast this
    have e1 : (2 : Rat) ^ (-25 : Int) = 1 / 33554432 := by norm_num
    rw [e1] at h2
    have : (m : Rat) * 2 ^ e ≤ 16777215 * (1 / 33554432) :=
      le_trans (mul_le_mul_of_nonneg_right h3 (two_zpow_pos e).le) (mul_le_mul_of_nonneg_left h2 (by norm_num))
    norm_num at this
    linarith

/-- The last position when the line gets one sample shorter. -/
theorem last_pos_one {w x : Nat} {s : Rat} (hw0 : 2361 < w) (hw : w ≤ 2761) (hf : IsFloatNum 24 (-149) s) (h1 : s < 1)
    (hx : x + 2 ≤ w) (hn : (w : Rat) - 1 ≤ f32 (w * s)) : scalePosF s x < (w : Rat) - 1 := by
  obtain ⟨i, rfl⟩ : ∃ i, w = 2362 + i := ⟨w - 2362, by omega⟩
  obtain ⟨k0, t1, t2⟩ := leastScale_table ⟨i, by omega⟩
  simp only at k0 t1 t2
  have ew : (((2362 + i : Nat) : Rat)) - 1 = ((2361 + i : Nat) : Rat) := by push_cast; ring
  rw [ew] at hn ⊢
  generalize leastScale (2362 + i) = k at *
  have hi : (i : Rat) ≤ 399 := by
    have : i ≤ 399 := by omega
    exact_mod_cast this
  have hi0 : (0 : Rat) ≤ i := Nat.cast_nonneg i
  have hhalf : 1 / 2 ≤ s := by
    by_contra hc
    push Not at hc
    have a : ((2362 + i : Nat) : Rat) * s ≤ ((2000 : Nat) : Rat) := by push_cast; nlinarith
    have := f32_mono a
    rw [f32_nat (by norm_num)] at this
    push_cast at this hn
    linarith
  obtain ⟨j, rfl⟩ := float_half hf hhalf
  have hkj : (k : Rat) ≤ j := by
    by_contra hc
    push Not at hc
    have hc' : j < (k : Int) := by exact_mod_cast hc
    have hc2 : (j : Rat) ≤ k - 1 := by
      have : j ≤ (k : Int) - 1 := by omega
      have : (j : Rat) ≤ (((k : Int) - 1 : Int) : Rat) := by exact_mod_cast this
      push_cast at this
      exact this
    have a : ((2362 + i : Nat) : Rat) * ((j : Rat) / 16777216) ≤ ((2362 + i : Nat) : Rat) * (((k : Rat) - 1) / 16777216) :=
      mul_le_mul_of_nonneg_left (by linarith) (Nat.cast_nonneg _)
    have := f32_mono a
    linarith
  have hk : (0 : Rat) < k := by exact_mod_cast k0
  refine lt_of_le_of_lt ?_ t2
  unfold scalePosF
  rw [f32_nat (by omega)]
  have hinv : f32 (1 / ((j : Rat) / 16777216)) ≤ f32 (16777216 / (k : Rat)) := by
    apply f32_mono
    rw [one_div_div]
    exact div_le_div_of_nonneg_left (by norm_num) hk hkj
  have hinv0 : 0 ≤ f32 (1 / ((j : Rat) / 16777216)) := f32_nonneg (by
    rw [one_div_div]
    exact div_nonneg (by norm_num) (by linarith))
  have hxx : (x : Rat) ≤ ((2360 + i : Nat) : Rat) := by
    have : x ≤ 2360 + i := by omega
    exact_mod_cast this
  exact f32_mono (mul_le_mul hxx hinv hinv0 (Nat.cast_nonneg _))

/-- The position that is sampled for a pixel of the result. -/
theorem scalePosF_spec {w n x : Nat} {s : Rat} (hw : w ≤ 2761) (hf : IsFloatNum 24 (-149) s) (h0 : 0 < s) (h1 : s < 1)
    (hl : ScaledLen w s n) (hn : n < w) (hnf : (n : Rat) ≤ f32 (w * s)) (hx : x < n) : ScaledPos w s x (scalePosF s x) := by
  have hx0 : (0 : Rat) ≤ x := Nat.cast_nonneg x
  have hX : (x : Rat) + 1 ≤ n := by exact_mod_cast hx
  obtain ⟨t, ht⟩ : ∃ t, t = 1 / s := ⟨_, rfl⟩
  have t1 : 1 < t := by rw [ht, lt_div_iff₀ h0]; linarith
  have ts : t * s = 1 := by rw [ht]; field_simp
  have hnt : (n : Rat) * t ≤ w * (1 + 1 / 16777216) := by
    have := mul_le_mul_of_nonneg_right hl.1 (show 0 ≤ t by linarith)
    have e : (w : Rat) * s * (1 + 1 / 16777216) * t = w * (1 + 1 / 16777216) * (t * s) := by ring
    rw [e, ts, mul_one] at this
    exact this
  have hi := abs_le.mp (f32_rel t1.le)
  have i1 : 1 ≤ f32 t := by
    have := f32_mono t1.le
    have e : f32 1 = 1 := by have := f32_nat (n := 1) (by norm_num); exact_mod_cast this
    rwa [e] at this
  have hp : |scalePosF s x - x * f32 t| ≤ x * f32 t / 16777216 := by
    unfold scalePosF
    rw [← ht, f32_nat (by omega)]
    rcases Nat.eq_zero_or_pos x with e | hpos
    · subst e
      simp [f32_zero]
    · have : (1 : Rat) ≤ x := by exact_mod_cast hpos
      exact f32_rel (by nlinarith)
  have hp' := abs_le.mp hp
  have hxt : (x : Rat) * t ≤ w * (1 + 1 / 16777216) := le_trans (mul_le_mul_of_nonneg_right (by linarith) (by linarith)) hnt
  have up : (x : Rat) * f32 t ≤ x * (t * (1 + 1 / 16777216)) := mul_le_mul_of_nonneg_left (by linarith [hi.2]) hx0
  have dn : (x : Rat) * (t * (1 - 1 / 16777216)) ≤ x * f32 t := mul_le_mul_of_nonneg_left (by linarith [hi.1]) hx0
  have hxf : 0 ≤ (x : Rat) * f32 t := mul_nonneg hx0 (by linarith)
  refine ⟨by linarith [hp'.1], ?_, ?_⟩
  · by_cases c : w ≤ 2361 ∧ n < w ∨ w ≤ 2761 ∧ n + 1 < w
    · exact last_pos c hx hnt (by linarith) (by linarith [hp'.2])
    · refine last_pos_one (by omega) hw hf h1 (by omega) ?_
      have e : n = w - 1 := by omega
      rwa [e, Nat.cast_sub (by omega), Nat.cast_one] at hnf
  have e : (x : Rat) / s = x * t := by rw [ht]; ring
  have hxt0 : 0 ≤ (x : Rat) * t := mul_nonneg hx0 (by linarith)
  rw [e, abs_le]
  constructor <;> linarith [hp'.1, hp'.2]

/-- The part of a number behind the point has no more digits than the number. -/
theorem frac_exact {p : Rat} (hf : IsFloatNum 24 (-149) p) (h0 : 0 ≤ p) : IsFloatNum 24 (-149) (p - ⌊p⌋) := by
  obtain ⟨m, e, hm, he, rfl⟩ := hf
  by_cases h : 0 ≤ e
  · obtain ⟨n, hn⟩ := floatNum_on_grid (z := (m : Rat) * 2 ^ e) (e := 0) ⟨m, e, h, rfl⟩
    rw [zpow_zero, mul_one] at hn
    rw [hn, Int.floor_intCast, sub_self]
    exact ⟨0, 0, by norm_num, by norm_num, by norm_num⟩
  · have hz := two_zpow_pos e
    obtain ⟨k, hk⟩ := floatNum_on_grid (z := (⌊(m : Rat) * 2 ^ e⌋ : Rat)) (e := e) ⟨⌊(m : Rat) * 2 ^ e⌋, 0, by omega, by simp⟩
    have fl := Int.floor_le ((m : Rat) * 2 ^ e)
    have f0 : (0 : Rat) ≤ ⌊(m : Rat) * 2 ^ e⌋ := by exact_mod_cast Int.floor_nonneg.mpr h0
    rw [hk] at fl f0
    have a : (k : Rat) ≤ m := le_of_mul_le_mul_right fl hz
    have b : (0 : Rat) ≤ k := nonneg_of_mul_nonneg_left f0 hz
    have a' : k ≤ m := by exact_mod_cast a
    have b' : 0 ≤ k := by exact_mod_cast b
    refine ⟨m - k, e, ?_, he, ?_⟩
    · rw [abs_of_nonneg (by omega)]
      rw [abs_of_nonneg (by omega)] at hm
      omega
    · rw [hk]
      push_cast
      ring

theorem scaleFracF_exact {p : Rat} {w : Nat} (hf : IsFloatNum 24 (-149) p) (h0 : 0 ≤ p) (h1 : p < (w : Rat) - 1) (hw : w ≤ 16777216) :
    scaleFracF p ⌊p⌋ = Int.fract p := by
  obtain ⟨a, b⟩ := floor_inside h0 h1
  unfold scaleFracF
  rw [f32_int (by rw [abs_of_nonneg a]; omega)]
  exact fround_exact (by norm_num) (frac_exact hf h0)

/-! ## Values -/

theorem f32_err_512 {q : Rat} (h0 : 0 ≤ q) (h : q < 512) : |f32 q - q| ≤ 1 / 65536 := by
  have := f32_err (q := q) (k := 9) (by norm_num) (by rw [abs_of_nonneg h0]; norm_num; exact h)
  norm_num at this ⊢
  exact this

theorem f32_err_two {q : Rat} (h0 : 0 ≤ q) (h : q < 2) : |f32 q - q| ≤ 1 / 16777216 := by
  have := f32_err (q := q) (k := 1) (by norm_num) (by rw [abs_of_nonneg h0]; norm_num; exact h)
  norm_num at this ⊢
  exact this

theorem mixF_nonneg {u a b : Rat} (hu0 : 0 ≤ u) (hu1 : u ≤ 1) (ha : 0 ≤ a) (hb : 0 ≤ b) : 0 ≤ mixF u a b :=
  f32_nonneg (add_nonneg (f32_nonneg (mul_nonneg ha (f32_nonneg (by linarith)))) (f32_nonneg (mul_nonneg hb hu0)))

theorem mixF_near {u a b : Rat} (hu0 : 0 ≤ u) (hu1 : u ≤ 1) (ha : 0 ≤ a) (hb : 0 ≤ b) (ha1 : a ≤ 256) (hb1 : b ≤ 256) :
    |mixF u a b - ((1 - u) * a + u * b)| ≤ 1 / 16384 := by
  unfold mixF
  have n1 := f32_nonneg (show 0 ≤ 1 - u by linarith)
  have e1 := abs_le.mp (f32_err_two (show 0 ≤ 1 - u by linarith) (by linarith))
  obtain ⟨r, hr⟩ : ∃ r, r = f32 (1 - u) := ⟨_, rfl⟩
  rw [← hr] at e1 n1 ⊢
  have a1 : a * r ≤ a * (1 - u) + 1 / 65536 := by nlinarith
  have a2 : a * (1 - u) - 1 / 65536 ≤ a * r := by nlinarith
  have a3 : a * (1 - u) ≤ 256 * (1 - u) := mul_le_mul_of_nonneg_right ha1 (by linarith)
  have b3 : b * u ≤ 256 * u := mul_le_mul_of_nonneg_right hb1 hu0
  have n2 : 0 ≤ a * r := mul_nonneg ha n1
  have n3 : 0 ≤ b * u := mul_nonneg hb hu0
  have e2 := abs_le.mp (f32_err_512 n2 (by linarith))
  have e3 := abs_le.mp (f32_err_512 n3 (by linarith))
  have e4 := abs_le.mp (f32_err_512 (add_nonneg (f32_nonneg n2) (f32_nonneg n3)) (by linarith [e2.2, e3.2]))
  rw [abs_le]
  constructor <;> linarith [e2.1, e2.2, e3.1, e3.2, e4.1, e4.2]

/-- The interpolation of four samples. -/
theorem bilinearF_near {u v a b c d : Rat} (hu0 : 0 ≤ u) (hu1 : u ≤ 1) (hv0 : 0 ≤ v) (hv1 : v ≤ 1) (ha : 0 ≤ a ∧ a ≤ 255)
    (hb : 0 ≤ b ∧ b ≤ 255) (hc : 0 ≤ c ∧ c ≤ 255) (hd : 0 ≤ d ∧ d ≤ 255) :
    0 ≤ mixF v (mixF u a b) (mixF u c d) ∧ |mixF v (mixF u a b) (mixF u c d) - bilinear u v a b c d| ≤ 1 / 8192 := by
  have k1 := mixF_nonneg hu0 hu1 ha.1 hb.1
  have k2 := mixF_nonneg hu0 hu1 hc.1 hd.1
  have e1 := abs_le.mp (mixF_near hu0 hu1 ha.1 hb.1 (by linarith) (by linarith))
  have e2 := abs_le.mp (mixF_near hu0 hu1 hc.1 hd.1 (by linarith) (by linarith))
  have r1 : (1 - u) * a + u * b ≤ 255 := by nlinarith
  have r2 : (1 - u) * c + u * d ≤ 255 := by nlinarith
  have e3 := abs_le.mp (mixF_near hv0 hv1 k1 k2 (by linarith [e1.2]) (by linarith [e2.2]))
  refine ⟨mixF_nonneg hv0 hv1 k1 k2, ?_⟩
  have hb : bilinear u v a b c d = (1 - v) * ((1 - u) * a + u * b) + v * ((1 - u) * c + u * d) := rfl
  rw [hb]
  generalize mixF v (mixF u a b) (mixF u c d) = z at *
  generalize mixF u a b = p at *
  generalize mixF u c d = q at *
  generalize (1 - u) * a + u * b = p' at *
  generalize (1 - u) * c + u * d = q' at *
  have m1 := mul_le_mul_of_nonneg_left e1.1 (show 0 ≤ 1 - v by linarith)
  have m2 := mul_le_mul_of_nonneg_left e1.2 (show 0 ≤ 1 - v by linarith)
  have m3 := mul_le_mul_of_nonneg_left e2.1 hv0
  have m4 := mul_le_mul_of_nonneg_left e2.2 hv0
  rw [abs_le]
  constructor <;> linarith [e3.1, e3.2]

/-! ## Images -/

section

variable {α : Type} {conv : α → Rat} {store : Rat → Res α} {junk : Nat → α} {dest src : GImage α} {w h : Nat} {f : Nat → Nat → α}

theorem scalePixelF_spec (hs : src.Shows w h f) (hw : w ≤ 2761) (hh : h ≤ 2761) {xp yp : Rat} (fx : IsFloatNum 24 (-149) xp)
    (fy : IsFloatNum 24 (-149) yp) (hx0 : 0 ≤ xp) (hx1 : xp < (w : Rat) - 1) (hy0 : 0 ≤ yp) (hy1 : yp < (h : Rat) - 1) :
    scalePixelF conv store src.data src.stride xp yp =
      store (mixF (Int.fract yp)
        (mixF (Int.fract xp) (conv (f ⌊xp⌋.toNat ⌊yp⌋.toNat)) (conv (f (⌊xp⌋ + 1).toNat ⌊yp⌋.toNat)))
        (mixF (Int.fract xp) (conv (f ⌊xp⌋.toNat (⌊yp⌋ + 1).toNat)) (conv (f (⌊xp⌋ + 1).toNat (⌊yp⌋ + 1).toNat)))) := by
  obtain ⟨x1, x2⟩ := floor_inside hx0 hx1
  obtain ⟨y1, y2⟩ := floor_inside hy0 hy1
  unfold scalePixelF
  rw [(truncInt_fits (fits_of hx0 hx1 (by omega))).1, (truncInt_fits (fits_of hy0 hy1 (by omega))).1, ratTrunc_nonneg hx0,
    ratTrunc_nonneg hy0]
  simp only [Res.ok_bind]
  rw [readFour_spec hs (by omega) (by omega) (by omega) (by omega), scaleFracF_exact fx hx0 hx1 (by omega),
    scaleFracF_exact fy hy0 hy1 (by omega)]
  rfl

/-- Images of up to 2761 columns and rows: only pixels of the source are read. `good v c` tells what is stored for `v`. -/
theorem gScaleF_spec {s : Rat} {good : Rat → α → Prop} (hd : dest.Wf) (hs : src.Shows w h f) (hw : w ≤ 2761) (hh : h ≤ 2761)
    (hf : IsFloatNum 24 (-149) s) (hs0 : 0 < s) (hs1 : s < 1) (hr : ∀ x y, x < w → y < h → 0 ≤ conv (f x y) ∧ conv (f x y) ≤ 255)
    (hst : ∀ v, 0 ≤ v → v < 256 → ∃ c, store v = .ok c ∧ good v c) :
    ∃ d n m S, gScaleF conv store junk dest src s = .ok d ∧ d.Wf ∧ ScaledLen w s n ∧ ScaledLen h s m ∧ d.Shows n m S ∧
      ∀ x y, x < n → y < m → ∃ px py v, ScaledPos w s x px ∧ ScaledPos h s y py ∧
        |v - bilinearAt (fun i j => conv (f i.toNat j.toNat)) px py| ≤ 1 / 8192 ∧ good v (S x y) := by
  have e1 := hs.width_eq
  have e2 := hs.height_eq
  obtain ⟨n, tn, ln, wn, fn⟩ := scaleLenF_spec (w := w) (by omega) hf hs0 hs1
  obtain ⟨m, tm, lm, hm, fm⟩ := scaleLenF_spec (w := h) (by omega) hf hs0 hs1
  have zero : ∀ {w n : Nat}, w = 0 → ScaledLen w s n → n = 0 := by
    intro w n e hl
    have := hl.1
    rw [e] at this
    norm_num at this
    exact this
  have pos : ∀ x y, x < n → y < m → n < w ∧ m < h := by
    intro x y hx hy
    refine ⟨wn.resolve_left (fun e => ?_), hm.resolve_left (fun e => ?_)⟩
    · have := zero e ln
      omega
    · have := zero e lm
      omega
  have key : ∀ x y, ∃ c, (x < n → y < m →
      (scalePixelF conv store src.data src.stride (scalePosF s x) (scalePosF s y) = .ok c ∧
        ∃ px py v, ScaledPos w s x px ∧ ScaledPos h s y py ∧
          |v - bilinearAt (fun i j => conv (f i.toNat j.toNat)) px py| ≤ 1 / 8192 ∧ good v c)) := by
    intro x y
    by_cases hxy : x < n ∧ y < m
    · obtain ⟨hx, hy⟩ := hxy
      obtain ⟨nw, mh⟩ := pos x y hx hy
      have px := scalePosF_spec hw hf hs0 hs1 ln nw fn hx
      have py := scalePosF_spec hh hf hs0 hs1 lm mh fm hy
      obtain ⟨x1, x2⟩ := floor_inside px.1 px.2.1
      obtain ⟨y1, y2⟩ := floor_inside py.1 py.2.1
      have u0 := Int.fract_nonneg (scalePosF s x)
      have u1 := (Int.fract_lt_one (scalePosF s x)).le
      have v0 := Int.fract_nonneg (scalePosF s y)
      have v1 := (Int.fract_lt_one (scalePosF s y)).le
      have r1 := hr ⌊scalePosF s x⌋.toNat ⌊scalePosF s y⌋.toNat (by omega) (by omega)
      have r2 := hr (⌊scalePosF s x⌋ + 1).toNat ⌊scalePosF s y⌋.toNat (by omega) (by omega)
      have r3 := hr ⌊scalePosF s x⌋.toNat (⌊scalePosF s y⌋ + 1).toNat (by omega) (by omega)
      have r4 := hr (⌊scalePosF s x⌋ + 1).toNat (⌊scalePosF s y⌋ + 1).toNat (by omega) (by omega)
      have nr := bilinearF_near u0 u1 v0 v1 r1 r2 r3 r4
      have rg := bilinear_range u0 u1 v0 v1 r1 r2 r3 r4
      obtain ⟨c, ec, gc⟩ := hst _ nr.1 (by linarith [(abs_le.mp nr.2).2, rg.2])
      refine ⟨c, fun _ _ => ⟨?_, _, _, _, px, py, nr.2, gc⟩⟩
      rw [scalePixelF_spec (xp := scalePosF s x) (yp := scalePosF s y) hs hw hh (fround_isFloat (by norm_num) _) (fround_isFloat (by norm_num) _) px.1 px.2.1
        py.1 py.2.1]
      exact ec
    · obtain ⟨c, _⟩ := hst 0 (by norm_num) (by norm_num)
      exact ⟨c, fun hx hy => absurd ⟨hx, hy⟩ hxy⟩
  choose S hS using key
  have nb : n ≤ 2761 := by
    rcases wn with e | e
    · rw [zero e ln]; omega
    · omega
  have mb : m ≤ 2761 := by
    rcases hm with e | e
    · rw [zero e lm]; omega
    · omega
  obtain ⟨d, ed, dw, dh, ds, dl⟩ := gResize_ok (junk := junk) (w := n) (h := m) (st := n) hd
    (le_trans (Nat.mul_le_mul nb mb) (by norm_num)) (Nat.le_refl _)
  obtain ⟨d', e, hF⟩ := fill_spec (st := d.stride) (H := d.height) (w := d.width) (f := S) (d0 := d.data)
    (body := fun y x d' => do
      let v ← scalePixelF conv store src.data src.stride (scalePosF s x) (scalePosF s y)
      writeAt d' (y * d.stride + x) v) (by omega) (by rw [dl, ds, dh]) (by
      intro y x d' hy hx' hd'
      rw [dh] at hy
      rw [dw] at hx'
      rw [(hS x y hx' hy).1]
      simp only [Res.ok_bind]
      exact writeAt_ok _ (by rw [hd']; exact pixIdx_lt (by omega) (by omega)))
  refine ⟨{ d with data := d' }, n, m, S, ?_, ⟨by simp only; omega, by rw [hF.1]⟩, ln, lm,
    ⟨dw, dh, fun x y hx hy => hF.2 x y (by omega) (Or.inl (by omega))⟩, fun x y hx hy => (hS x y hx hy).2⟩
  unfold gScaleF
  rw [e1, e2, tn, tm]
  simp only [Res.ok_bind, Int.toNat_natCast]
  rw [if_neg (by omega), ed]
  simp only [Res.ok_bind]
  rw [e]
  rfl

/-- A pixel outside of the source makes the whole call undefined. -/
theorem gScaleF_ub (hst : ∀ v, store v ≠ .fatal) {s : Rat} {n m : Nat} (hd : dest.Wf) (tw : scaleLenF src.width s = .ok n)
    (th : scaleLenF src.height s = .ok m) (hn : n ≤ 32767) (hm : m ≤ 32767) {x y : Nat} (hx : x < n) (hy : y < m)
    (hp : scalePixelF conv store src.data src.stride (scalePosF s x) (scalePosF s y) = .ub) : gScaleF conv store junk dest src s = .ub := by
  obtain ⟨d, ed, dw, dh, ds, dl⟩ := gResize_ok (junk := junk) (w := n) (h := m) (st := n) hd
    (le_trans (Nat.mul_le_mul hn hm) (by norm_num)) (Nat.le_refl _)
  have hpix : ∀ xp yp, scalePixelF conv store src.data src.stride xp yp ≠ .fatal := by
    intro xp yp
    unfold scalePixelF
    have ht : ∀ q, truncInt q = .ub ∨ ∃ i, truncInt q = .ok i := by
      intro q
      unfold truncInt
      split
      · exact Or.inr ⟨_, rfl⟩
      · exact Or.inl rfl
    rcases ht yp with e | ⟨yi, e⟩ <;> rw [e]
    · intro h; cases h
    rcases ht xp with e | ⟨xi, e⟩ <;> simp only [Res.ok_bind] <;> rw [e]
    · intro h; cases h
    simp only [Res.ok_bind]
    cases hr : readFour src.data src.stride (xi, xi + 1) (yi, yi + 1) with
    | ub => intro h; cases h
    | fatal => exact absurd hr (readFour_not_fatal _ _ _ _)
    | ok p => exact hst _
  have hbody : ∀ (y x : Nat) (d' : List α), (do
      let v ← scalePixelF conv store src.data src.stride (scalePosF s x) (scalePosF s y)
      writeAt d' (y * d.stride + x) v : Res (List α)) ≠ .fatal := by
    intro y x d'
    cases hp : scalePixelF conv store src.data src.stride (scalePosF s x) (scalePosF s y) with
    | fatal => exact absurd hp (hpix _ _)
    | ub => intro h; cases h
    | ok v =>
      simp only [Res.ok_bind]
      unfold writeAt
      split <;> intro h <;> cases h
  unfold gScaleF
  rw [tw, th]
  simp only [Res.ok_bind, Int.toNat_natCast]
  rw [if_neg (by omega), ed]
  simp only [Res.ok_bind]
  rw [forLoop_ub_at (k := y) (fun y d' => forLoop_not_fatal (hbody y) 0 d') (by omega) _ 0 (Nat.zero_le _)]
  · rfl
  intro d'
  refine forLoop_ub_at (k := x) (hbody y) (by omega) (fun s' => ?_) 0 (Nat.zero_le _) d'
  rw [hp]
  rfl

end

/-! ## C148 -/

/-- C148, 8-bit: an image of up to 2761 columns and rows is made smaller without reading anything but its pixels, and every pixel of the
result is the interpolation at its position, rounded down, up to 1/8192. -/
theorem c148_scale_uc_partial {junk : Nat → Byte} {dest src : GImage Byte} {w h : Nat} {f : Nat → Nat → Byte} {s : Rat} (hd : dest.Wf)
    (hs : src.Shows w h f) (hw : w ≤ 2761) (hh : h ≤ 2761) (hf : IsFloatNum 24 (-149) s) (hs0 : 0 < s) (hs1 : s < 1) :
    ∃ d n m S, gScaleF byteVal storeClamped junk dest src s = .ok d ∧ d.Wf ∧ ScaledLen w s n ∧ ScaledLen h s m ∧ d.Shows n m S ∧
      ∀ x y, x < n → y < m → ∃ px py, ScaledPos w s x px ∧ ScaledPos h s y py ∧
        byteVal (S x y) ≤ bilinearAt (continued f Int.toNat Int.toNat) px py + 1 / 8192 ∧
        bilinearAt (continued f Int.toNat Int.toNat) px py - 1 / 8192 < byteVal (S x y) + 1 := by
  have hst : ∀ v : Rat, 0 ≤ v → v < 256 → ∃ c, storeClamped v = .ok c ∧ (byteVal c ≤ v ∧ v < byteVal c + 1) := by
    intro v h0 h1
    have hge : 0 ≤ ⌊v⌋ := Int.floor_nonneg.mpr h0
    have hle : ⌊v⌋ < 256 := by
      rw [Int.floor_lt]
      exact_mod_cast h1
    refine ⟨clampByte ⌊v⌋, ?_, ?_⟩
    · unfold storeClamped
      simp only
      rw [ratTrunc_nonneg h0, if_pos (by omega)]
    · have e : byteVal (clampByte ⌊v⌋) = ⌊v⌋ := by
        unfold byteVal clampByte
        rw [if_neg (by omega), if_neg (by omega), UInt8.toNat_ofNat']
        have : ((⌊v⌋.toNat % 2 ^ 8 : Nat) : Int) = ⌊v⌋ := by omega
        rw [← Int.cast_natCast, this]
      rw [e]
      exact ⟨Int.floor_le v, Int.lt_floor_add_one v⟩
  obtain ⟨d, n, m, S, e, q1, q2, q3, q4, q5⟩ := gScaleF_spec (conv := byteVal) (store := storeClamped) (junk := junk)
    (good := fun v c => byteVal c ≤ v ∧ v < byteVal c + 1) hd hs hw hh hf hs0 hs1 (fun x y _ _ => ⟨byteVal_nonneg _, byteVal_le _⟩) hst
  refine ⟨d, n, m, S, e, q1, q2, q3, q4, fun x y hx hy => ?_⟩
  obtain ⟨px, py, v, a, b, c, g1, g2⟩ := q5 x y hx hy
  have hc : |v - bilinearAt (continued f Int.toNat Int.toNat) px py| ≤ 1 / 8192 := c
  have hc := abs_le.mp hc
  exact ⟨px, py, a, b, by linarith [hc.1, hc.2], by linarith [hc.1, hc.2]⟩

/-- C148, `float`: the same for images with values from 0 to 255. -/
theorem c148_scale_f32_partial {junk : Nat → Rat} {dest src : GImage Rat} {w h : Nat} {f : Nat → Nat → Rat} {s : Rat} (hd : dest.Wf)
    (hs : src.Shows w h f) (hw : w ≤ 2761) (hh : h ≤ 2761) (hf : IsFloatNum 24 (-149) s) (hs0 : 0 < s) (hs1 : s < 1)
    (hr : ∀ x y, x < w → y < h → 0 ≤ f x y ∧ f x y ≤ 255) :
    ∃ d n m S, gScaleF id .ok junk dest src s = .ok d ∧ d.Wf ∧ ScaledLen w s n ∧ ScaledLen h s m ∧ d.Shows n m S ∧
      ∀ x y, x < n → y < m → ∃ px py, ScaledPos w s x px ∧ ScaledPos h s y py ∧
        |S x y - bilinearAt (fun i j => f i.toNat j.toNat) px py| ≤ 1 / 8192 := by
  obtain ⟨d, n, m, S, e, q1, q2, q3, q4, q5⟩ := gScaleF_spec (conv := id) (store := .ok) (junk := junk) (good := fun v c => v = c) hd hs hw hh
    hf hs0 hs1 hr (fun v _ _ => ⟨v, rfl, rfl⟩)
  refine ⟨d, n, m, S, e, q1, q2, q3, q4, fun x y hx hy => ?_⟩
  obtain ⟨px, py, v, a, b, c, rfl⟩ := q5 x y hx hy
  exact ⟨px, py, a, b, c⟩

/-- The scale of the counterexample, a `float` below one. -/
theorem wideScale : IsFloatNum 24 (-149) (16771141 / 16777216 : Rat) := ⟨16771141, -24, by norm_num, by norm_num, by norm_num⟩

example : ∃ d n m S, gScaleF byteVal storeClamped (fun _ => 0) ⟨0, 0, 0, []⟩ (⟨4, 4, 4, [0, 10, 20, 30, 40, 50, 60, 70, 80, 90, 100, 110,
    120, 130, 140, 150]⟩ : GImage Byte) (3 / 4) = .ok d ∧ d.Wf ∧ ScaledLen 4 (3 / 4) n ∧ ScaledLen 4 (3 / 4) m ∧ d.Shows n m S ∧
      ∀ x y, x < n → y < m → ∃ px py, ScaledPos 4 (3 / 4) x px ∧ ScaledPos 4 (3 / 4) y py ∧
        byteVal (S x y) ≤ bilinearAt (continued (fun x y => UInt8.ofNat (10 * x + 40 * y)) Int.toNat Int.toNat) px py + 1 / 8192 ∧
        bilinearAt (continued (fun x y => UInt8.ofNat (10 * x + 40 * y)) Int.toNat Int.toNat) px py - 1 / 8192 < byteVal (S x y) + 1 :=
  c148_scale_uc_partial (w := 4) (h := 4) (f := fun x y => UInt8.ofNat (10 * x + 40 * y)) ⟨by decide, by decide⟩
    ⟨rfl, rfl, fun x y hx hy => by interval_cases x <;> interval_cases y <;> rfl⟩ (by norm_num) (by norm_num)
    ⟨3, -2, by norm_num, by norm_num, by norm_num⟩ (by norm_num) (by norm_num)

example : (gScaleF byteVal storeClamped (fun _ => 0) ⟨0, 0, 0, []⟩ (⟨4, 4, 4, [0, 10, 20, 30, 40, 50, 60, 70, 80, 90, 100, 110,
    120, 130, 140, 150]⟩ : GImage Byte) (3 / 4)) = .ok ⟨3, 3, 3, [0, 13, 26, 53, 66, 80, 106, 120, 133]⟩ := by decide +kernel

/-- C148 fails for wider images: a position is rounded up to the last column, and the sample behind the last row is read. -/
theorem c148_outside_false {α : Type} {conv : α → Rat} {store : Rat → Res α} (hst : ∀ v, store v ≠ .fatal) {junk : Nat → α}
    {dest src : GImage α} (hd : dest.Wf) (hw : src.width = 2762) (hh : src.height = 2) (hst' : src.stride = 2762)
    (hl : src.data.length = 5524) : gScaleF conv store junk dest src (16771141 / 16777216) = .ub := by
  have t1 : scaleLenF 2762 (16771141 / 16777216) = .ok 2761 := by decide +kernel
  have t2 : scaleLenF 2 (16771141 / 16777216) = .ok 1 := by decide +kernel
  have p1 : scalePosF (16771141 / 16777216) 2760 = 2761 := by decide +kernel
  have p0 : scalePosF (16771141 / 16777216) 0 = 0 := by decide +kernel
  refine gScaleF_ub hst (n := 2761) (m := 1) hd (by rw [hw]; exact t1) (by rw [hh]; exact t2) (by norm_num) (by norm_num)
    (x := 2760) (y := 0) (by norm_num) (by norm_num) ?_
  have q1 : truncInt 2761 = .ok 2761 := by decide +kernel
  have q0 : truncInt 0 = .ok 0 := by decide +kernel
  unfold scalePixelF
  rw [p1, p0, q1, q0]
  simp only [Res.ok_bind]
  rw [readFour_ub]
  · rfl
  right
  unfold readI
  rw [hst', if_pos (by norm_num)]
  unfold readAt
  rw [List.getElem?_eq_none (by rw [hl]; norm_num)]

theorem storeClamped_not_fatal (v : Rat) : storeClamped v ≠ .fatal := by
  unfold storeClamped
  simp only
  split <;> intro h <;> cases h

example : gScaleF byteVal storeClamped (fun _ => 0) ⟨0, 0, 0, []⟩ ⟨2762, 2, 2762, List.replicate 5524 7⟩ (16771141 / 16777216) = .ub :=
  c148_outside_false storeClamped_not_fatal ⟨by decide, by decide⟩ rfl rfl rfl (List.length_replicate ..)

end Nx
