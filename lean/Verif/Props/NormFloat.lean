import Verif.Model.NormFloat
import Verif.Props.DerivFloat
import Verif.Props.GrayFloat

/-!
# C156: normalisation of images in `float` arithmetic
-/

namespace Nx

variable {img : GImage Rat} {nc w h : Nat} {f : Nat → Nat → Rat}

/-! ## The loops -/

theorem axpyF32Fl_spec (a b : Rat) (hw : (img.flat nc).Wf) (hs : (img.flat nc).Shows w h f) :
    ∃ d, axpyF32Fl nc a b img = .ok d ∧ (d.flat nc).Wf ∧ (d.flat nc).Shows w h (fun x y => f32 (f32 (a * f x y) + b)) := by
  obtain ⟨d', e, hP⟩ := sampleLoop_write (φ := fun v => f32 (f32 (a * v) + b))
    (body := fun i d => do
      let v ← readAt d i
      writeAt d i (f32 (f32 (a * v) + b))) hw hs (by
      intro i d v x y _ _ _ hv _
      rw [readAt_some hv]
      rfl)
  refine ⟨{ img with data := d' }, ?_, ⟨hw.stride_ge, ?_⟩, ⟨hs.width_eq, hs.height_eq, hP.at'⟩⟩
  · unfold axpyF32Fl
    rw [e]
    rfl
  · have e2 : img.height = h := hs.height_eq
    show d'.length = img.stride * img.height
    rw [hP.len, e2]

/-- What becomes of one sample. -/
def normOne (k : Rat × Rat) (v : Rat) : Rat := clampUnit (f32 (f32 (k.1 * v) + k.2))

theorem gNormalizeFl_spec (sym : Bool) (hw : (img.flat nc).Wf) (hs : (img.flat nc).Shows w h f) (m : Rat × Rat)
    (hm : (scan w h f).foldl minMaxStep (fltMax, -fltMax) = m) :
    ∃ d, gNormalizeFl nc sym img = .ok d ∧ (d.flat nc).Wf ∧
      (d.flat nc).Shows w h (fun x y => normOne (normCoeffsFl sym m.1 m.2) (f x y)) := by
  have hf := sampleLoop_fold minMaxStep hs (fltMax, -fltMax)
  rw [hm] at hf
  obtain ⟨d, e, hw', hs'⟩ := axpyF32Fl_spec (normCoeffsFl sym m.1 m.2).1 (normCoeffsFl sym m.1 m.2).2 hw hs
  obtain ⟨d', e', hP⟩ := sampleLoop_write (φ := clampUnit)
    (body := fun i d => do
      let v ← readAt d i
      writeAt d i (clampUnit v)) hw' hs' (by
      intro i d v x y _ _ _ hv _
      rw [readAt_some hv]
      rfl)
  refine ⟨{ d with data := d' }, ?_, ⟨hw'.stride_ge, ?_⟩, ⟨hs'.width_eq, hs'.height_eq, hP.at'⟩⟩
  · unfold gNormalizeFl
    rw [hf]
    simp only [Res.ok_bind]
    rw [e]
    simp only [Res.ok_bind]
    rw [e']
    rfl
  · have e2 : d.height = h := hs'.height_eq
    show d'.length = d.stride * d.height
    rw [hP.len, e2]

/-! ## Rounding -/

theorem f32_rel_grid {q : Rat} (hq : OnGrid q) : |f32 q - q| ≤ |q| / 16777216 := by
  by_cases h0 : q = 0
  · rw [h0, f32_zero]
    norm_num
  by_cases hl : lastExp 24 (-149) q = -149
  · rw [f32_low hq hl, sub_self, abs_zero]
    positivity
  · have h1 := emin_le_lastExp 24 (-149) q
    have h2 := le_abs_lastExp (p := 24) (emin := -149) h0 (by omega)
    have h3 := fround_rel (p := 24) (emin := -149) (q := q) (le_trans (zpow_le_zpow_two (by push_cast; omega)) h2)
    norm_num at h3
    exact h3

theorem f32_near (q : Rat) : |f32 q - q| ≤ |q| / 16777216 + 1 / 281474976710656 := by
  by_cases h0 : q = 0
  · rw [h0, f32_zero]
    norm_num
  by_cases hl : lastExp 24 (-149) q = -149
  · have h3 := fround_err 24 (-149) q
    rw [hl] at h3
    have h4 : (2 : Rat) ^ (-149 : Int) ≤ 2 ^ (-48 : Int) := zpow_le_zpow_two (by norm_num)
    have h5 : (2 : Rat) ^ (-48 : Int) = 1 / 281474976710656 := by norm_num
    rw [h5] at h4
    have h6 : 0 ≤ |q| / 16777216 := by positivity
    have h7 : |f32 q - q| ≤ 2 ^ (-149 : Int) / 2 := h3
    linarith
  · have h1 := emin_le_lastExp 24 (-149) q
    have h2 := le_abs_lastExp (p := 24) (emin := -149) h0 (by omega)
    have h3 := fround_rel (p := 24) (emin := -149) (q := q) (le_trans (zpow_le_zpow_two (by push_cast; omega)) h2)
    have h4 : |f32 q - q| ≤ |q| / 16777216 := by
      norm_num at h3
      exact h3
    linarith

/-- Rounding a number near `c`. -/
theorem f32_shift {q c e B : Rat} (h : |q - c| ≤ e) (hc : |c| ≤ B) :
    |f32 q - c| ≤ e + (B + e) / 16777216 + 1 / 281474976710656 := by
  have h1 := f32_near q
  have h2 : |q| ≤ B + e := by
    have := abs_add_le (q - c) c
    rw [sub_add_cancel] at this
    linarith
  have h3 : |f32 q - c| ≤ |f32 q - q| + |q - c| := by
    have := abs_add_le (f32 q - q) (q - c)
    rwa [sub_add_sub_cancel] at this
  linarith

theorem clampUnit_near {v c e : Rat} (h : |v - c| ≤ e) (h0 : 0 ≤ c) (h1 : c ≤ 1) : |clampUnit v - c| ≤ e := by
  rw [abs_le] at h ⊢
  unfold clampUnit
  split
  · constructor <;> linarith
  split
  · constructor <;> linarith
  · exact h

theorem clampUnit_mono {a b : Rat} (h : a ≤ b) : clampUnit a ≤ clampUnit b := by
  unfold clampUnit
  split <;> split <;> (try split) <;> (try split) <;> linarith

theorem clampUnit_range (a : Rat) : 0 ≤ clampUnit a ∧ clampUnit a ≤ 1 := by
  unfold clampUnit
  split
  · norm_num
  split
  · norm_num
  · constructor <;> linarith

theorem normOne_mono {k : Rat × Rat} (hk : 0 ≤ k.1) {a b : Rat} (h : a ≤ b) : normOne k a ≤ normOne k b :=
  clampUnit_mono (f32_mono (add_le_add_left (f32_mono (mul_le_mul_of_nonneg_left h hk)) _))

theorem normCoeffsFl_nonneg (sym : Bool) {lo hi : Rat} (h : lo < hi) : 0 ≤ (normCoeffsFl sym lo hi).1 := by
  unfold normCoeffsFl
  rw [if_neg (ne_of_gt h)]
  cases sym with
  | true =>
    simp only [if_true]
    refine f32_nonneg (div_nonneg (by norm_num) (f32_nonneg (mul_nonneg (by norm_num) ?_)))
    split <;> split <;> (try split) <;> linarith
  | false =>
    simp only [Bool.false_eq_true, if_false]
    exact f32_nonneg (div_nonneg (by norm_num) (f32_nonneg (by linarith)))

/-- A product with the rounded reciprocal of a number near `D`. -/
theorem recip_near {D d : Rat} (hD : 0 < D) (hd : |d - D| ≤ D / 16777216) (hmax : d ≤ 2 ^ (126 : Int)) :
    |f32 (1 / d) * D - 1| ≤ 4 / 16777216 ∧ |D / d - 1| ≤ 2 / 16777216 ∧ 0 < d := by
  rw [abs_le] at hd
  have hd0 : 0 < d := by linarith
  have e1 : |D / d - 1| ≤ 2 / 16777216 := by
    have : D / d - 1 = (D - d) / d := by field_simp
    rw [this, abs_le]
    constructor
    · rw [le_div_iff₀ hd0]
      linarith
    · rw [div_le_iff₀ hd0]
      linarith
  have h1 : (2 : Rat) ^ (-126 : Int) ≤ 1 / d := by
    rw [zpow_neg, ← one_div]
    exact one_div_le_one_div_of_le hd0 hmax
  have h2 := f32_rel_small h1
  refine ⟨?_, e1, hd0⟩
  have h3 : |f32 (1 / d) * D - D / d| ≤ D / d / 16777216 := by
    have e : f32 (1 / d) * D - D / d = (f32 (1 / d) - 1 / d) * D := by ring
    rw [e, abs_mul, abs_of_pos hD]
    have := mul_le_mul_of_nonneg_right h2 hD.le
    refine le_trans this (le_of_eq ?_)
    ring
  rw [abs_le] at e1 h3 ⊢
  constructor <;> linarith

/-- One sample, not symmetric. -/
theorem normOne_near {lo hi v K : Rat} (hlo : IsFloatNum 24 (-149) lo) (hhi : IsFloatNum 24 (-149) hi) (hlt : lo < hi)
    (hD : hi - lo ≤ 2 ^ (100 : Int)) (h0 : lo ≤ v) (h1 : v ≤ hi) (hK : max |lo| |hi| / (hi - lo) = K) :
    |normOne (normCoeffsFl false lo hi) v - (v - lo) / (hi - lo)| ≤ (1 + K) / 1048576 := by
  obtain ⟨D, eD⟩ : ∃ D, D = hi - lo := ⟨_, rfl⟩
  have hpos : 0 < D := by linarith
  obtain ⟨d, ed⟩ : ∃ d, d = f32 D := ⟨_, rfl⟩
  have hd : |d - D| ≤ D / 16777216 := by
    have := f32_rel_grid (q := D) (by rw [eD]; exact (onGrid_float hhi).sub (onGrid_float hlo))
    rwa [abs_of_pos hpos, ← ed] at this
  have hmax : d ≤ 2 ^ (126 : Int) := by
    rw [abs_le] at hd
    rw [← eD] at hD
    have : (2 : Rat) ^ (126 : Int) = 67108864 * 2 ^ (100 : Int) := by norm_num
    rw [this]
    linarith
  obtain ⟨hA, hr, hd0⟩ := recip_near hpos hd hmax
  obtain ⟨A, eA⟩ : ∃ A, A = f32 (1 / d) * D := ⟨_, rfl⟩
  obtain ⟨r, er⟩ : ∃ r, r = D / d := ⟨_, rfl⟩
  rw [← eA] at hA
  rw [← er] at hr
  obtain ⟨p, ep⟩ : ∃ p, p = v / D := ⟨_, rfl⟩
  obtain ⟨l, el⟩ : ∃ l, l = lo / D := ⟨_, rfl⟩
  rw [← eD] at hK
  have hvM : |v| ≤ max |lo| |hi| := by
    rw [abs_le]
    have a1 := neg_abs_le lo
    have a2 := le_abs_self hi
    have a3 := le_max_left |lo| |hi|
    have a4 := le_max_right |lo| |hi|
    constructor <;> linarith
  have hp : |p| ≤ K := by
    rw [ep, abs_div, abs_of_pos hpos, ← hK]
    exact div_le_div_of_nonneg_right hvM hpos.le
  have hl : |l| ≤ K := by
    rw [el, abs_div, abs_of_pos hpos, ← hK]
    exact div_le_div_of_nonneg_right (le_max_left _ _) hpos.le
  have hK0 : 0 ≤ K := le_trans (abs_nonneg _) hp
  have hc : (v - lo) / (hi - lo) = p - l := by
    rw [← eD, ep, el, sub_div]
  have hc0 : 0 ≤ p - l := by
    rw [← hc]
    exact div_nonneg (by linarith) (by linarith)
  have hc1 : p - l ≤ 1 := by
    rw [← hc, div_le_one (by linarith)]
    linarith
  have ek : normCoeffsFl false lo hi = (f32 (1 / d), f32 (-lo / d)) := by
    unfold normCoeffsFl
    rw [if_neg (ne_of_gt hlt), ed, eD]
    rfl
  have m1 : f32 (1 / d) * v = A * p := by
    rw [eA, ep]
    field_simp
  have m2 : -lo / d = -(l * r) := by
    rw [er, el]
    field_simp
  have b1 : |A * p - p| ≤ 4 / 16777216 * K := by
    have e : A * p - p = (A - 1) * p := by ring
    rw [e, abs_mul]
    exact mul_le_mul hA hp (abs_nonneg _) (by norm_num)
  have b2 : |-(l * r) - -l| ≤ 2 / 16777216 * K := by
    have e : -(l * r) - -l = -((r - 1) * l) := by ring
    rw [e, abs_neg, abs_mul]
    exact mul_le_mul hr hl (abs_nonneg _) (by norm_num)
  have c1 := f32_shift b1 hp
  have c2 := f32_shift (B := K) b2 (by rw [abs_neg]; exact hl)
  have b3 : |f32 (A * p) + f32 (-(l * r)) - (p - l)| ≤ (4 / 16777216 * K + (K + 4 / 16777216 * K) / 16777216 + 1 / 281474976710656) +
      (2 / 16777216 * K + (K + 2 / 16777216 * K) / 16777216 + 1 / 281474976710656) := by
    have e : f32 (A * p) + f32 (-(l * r)) - (p - l) = (f32 (A * p) - p) + (f32 (-(l * r)) - -l) := by ring
    rw [e]
    exact le_trans (abs_add_le _ _) (add_le_add c1 c2)
  have c3 := f32_shift (B := 1) b3 (by rw [abs_of_nonneg hc0]; exact hc1)
  unfold normOne
  rw [ek, hc]
  simp only
  rw [m1, m2]
  refine clampUnit_near (le_trans c3 ?_) hc0 hc1
  linarith

/-- One sample, symmetric. -/
theorem normOne_sym_near {lo hi v : Rat} (hlo : IsFloatNum 24 (-149) lo) (hhi : IsFloatNum 24 (-149) hi) (hlt : lo < hi)
    (hD : max |lo| |hi| ≤ 2 ^ (100 : Int)) (h0 : lo ≤ v) (h1 : v ≤ hi) :
    |normOne (normCoeffsFl true lo hi) v - (v / (2 * max |lo| |hi|) + 1 / 2)| ≤ 1 / 2097152 := by
  obtain ⟨T, eT⟩ : ∃ T, T = max |lo| |hi| := ⟨_, rfl⟩
  have a1 := neg_abs_le lo
  have a2 := le_abs_self hi
  have a3 := le_max_left |lo| |hi|
  have a4 := le_max_right |lo| |hi|
  have a5 := abs_nonneg lo
  have a6 := abs_nonneg hi
  rw [← eT] at a3 a4 hD ⊢
  have hT : 0 < T := by
    rcases lt_or_eq_of_le (le_trans a5 a3) with h | h
    · exact h
    · exfalso
      linarith
  have habs : ∀ q : Rat, (if q < 0 then -q else q) = |q| := by
    intro q
    split
    · rw [abs_of_neg (by assumption)]
    · rw [abs_of_nonneg (by linarith)]
  have ek : normCoeffsFl true lo hi = (f32 (1 / f32 (2 * T)), 1 / 2) := by
    unfold normCoeffsFl
    rw [if_neg (ne_of_gt hlt)]
    simp only [if_true, habs]
    have : (if |lo| > |hi| then |lo| else |hi|) = T := by
      rw [eT]
      split
      · rw [max_eq_left (by linarith)]
      · rw [max_eq_right (by linarith)]
    rw [this]
  have hg : OnGrid (2 * T) := by
    have ng : ∀ q, OnGrid q → OnGrid (2 * |q|) := by
      rintro q ⟨n, rfl⟩
      rcases abs_choice ((n : Rat) * 2 ^ (-149 : Int)) with e | e
      · exact ⟨2 * n, by rw [e]; push_cast; ring⟩
      · exact ⟨-2 * n, by rw [e]; push_cast; ring⟩
    rcases max_choice |lo| |hi| with e | e
    · rw [eT, e]
      exact ng _ (onGrid_float hlo)
    · rw [eT, e]
      exact ng _ (onGrid_float hhi)
  obtain ⟨d, ed⟩ : ∃ d, d = f32 (2 * T) := ⟨_, rfl⟩
  have hd : |d - 2 * T| ≤ 2 * T / 16777216 := by
    have := f32_rel_grid hg
    rwa [abs_of_pos (by linarith : 0 < 2 * T), ← ed] at this
  have hmax : d ≤ 2 ^ (126 : Int) := by
    rw [abs_le] at hd
    have : (2 : Rat) ^ (126 : Int) = 67108864 * 2 ^ (100 : Int) := by norm_num
    rw [this]
    linarith
  obtain ⟨hA, _, hd0⟩ := recip_near (by linarith : 0 < 2 * T) hd hmax
  obtain ⟨A, eA⟩ : ∃ A, A = f32 (1 / d) * (2 * T) := ⟨_, rfl⟩
  rw [← eA] at hA
  obtain ⟨p, ep⟩ : ∃ p, p = v / (2 * T) := ⟨_, rfl⟩
  have hp : |p| ≤ 1 / 2 := by
    rw [ep, abs_div, abs_of_pos (by linarith : 0 < 2 * T), div_le_iff₀ (by linarith), abs_le]
    constructor <;> linarith
  have m1 : f32 (1 / d) * v = A * p := by
    rw [eA, ep]
    field_simp
  have b1 : |A * p - p| ≤ 4 / 16777216 * (1 / 2) := by
    have e : A * p - p = (A - 1) * p := by ring
    rw [e, abs_mul]
    exact mul_le_mul hA hp (abs_nonneg _) (by norm_num)
  have c1 := f32_shift b1 hp
  have b3 : |f32 (A * p) + 1 / 2 - (p + 1 / 2)| ≤ 4 / 16777216 * (1 / 2) + (1 / 2 + 4 / 16777216 * (1 / 2)) / 16777216 + 1 / 281474976710656 := by
    have e : f32 (A * p) + 1 / 2 - (p + 1 / 2) = f32 (A * p) - p := by ring
    rw [e]
    exact c1
  rw [abs_le] at hp
  have c3 := f32_shift b3 (B := 1) (by rw [abs_le]; constructor <;> linarith)
  unfold normOne
  rw [ek, ← ed, ← ep]
  simp only
  rw [m1]
  refine clampUnit_near (le_trans c3 ?_) (by linarith) (by linarith)
  norm_num

/-! ## The images -/

theorem mem_scan {x y : Nat} (hx : x < w) (hy : y < h) : f x y ∈ scan w h f := by
  unfold scan
  rw [List.mem_flatMap]
  exact ⟨y, by simpa using hy, by rw [List.mem_map]; exact ⟨x, by simpa using hx, rfl⟩⟩

/-- C156. For all images the results lie between zero and one; they depend on the sample only, not on the position. -/
theorem c156_range (sym : Bool) (hw : (img.flat nc).Wf) (hs : (img.flat nc).Shows w h f) :
    ∃ (d : GImage Rat) (φ : Rat → Rat), gNormalizeFl nc sym img = .ok d ∧ (d.flat nc).Wf ∧ (d.flat nc).Shows w h (fun x y => φ (f x y)) ∧
      ∀ v, 0 ≤ φ v ∧ φ v ≤ 1 := by
  obtain ⟨d, e, a, b⟩ := gNormalizeFl_spec sym hw hs _ rfl
  exact ⟨d, _, e, a, b, fun v => clampUnit_range _⟩

/-- C156. If the greatest sample is not the first one only, the order of the samples is kept, and every result is near the exact one;
the bound grows with the ratio of the greatest absolute value to the range. -/
theorem c156_normalize_partial (hw : (img.flat nc).Wf) (hs : (img.flat nc).Shows w h f) (lo hi first : Rat) (rest : List Rat)
    (hscan : scan w h f = first :: rest) (hlo : lo ∈ scan w h f) (hlo' : ∀ v ∈ scan w h f, lo ≤ v) (hhi : hi ∈ rest)
    (hhi' : ∀ v ∈ scan w h f, v ≤ hi) (hlt : lo < hi) (hr : ∀ v ∈ scan w h f, -fltMax < v ∧ v < fltMax)
    (hf : ∀ v ∈ scan w h f, IsFloatNum 24 (-149) v) (hD : hi - lo ≤ 2 ^ (100 : Int)) :
    ∃ d g, gNormalizeFl nc false img = .ok d ∧ (d.flat nc).Wf ∧ (d.flat nc).Shows w h g ∧
      (∀ x < w, ∀ y < h, |g x y - (f x y - lo) / (hi - lo)| ≤ (1 + max |lo| |hi| / (hi - lo)) / 1048576) ∧
      ∀ x < w, ∀ y < h, ∀ x' < w, ∀ y' < h, f x y ≤ f x' y' → g x y ≤ g x' y' := by
  obtain ⟨d, e, a, b⟩ := gNormalizeFl_spec false hw hs (lo, hi) (minMax_found _ lo hi first rest hscan hlo hlo' hhi hhi' hr)
  have hm : hi ∈ scan w h f := by rw [hscan]; exact List.mem_cons_of_mem _ hhi
  refine ⟨d, _, e, a, b, ?_, ?_⟩
  · intro x hx y hy
    exact normOne_near (hf _ hlo) (hf _ hm) hlt hD (hlo' _ (mem_scan hx hy)) (hhi' _ (mem_scan hx hy)) rfl
  · intro x _ y _ x' _ y' _ hle
    exact normOne_mono (normCoeffsFl_nonneg false hlt) hle

/-- C156. The symmetric normalisation is accurate for all ranges, keeps the order, and takes zero to exactly one half. -/
theorem c156_symmetric_partial (hw : (img.flat nc).Wf) (hs : (img.flat nc).Shows w h f) (lo hi first : Rat) (rest : List Rat)
    (hscan : scan w h f = first :: rest) (hlo : lo ∈ scan w h f) (hlo' : ∀ v ∈ scan w h f, lo ≤ v) (hhi : hi ∈ rest)
    (hhi' : ∀ v ∈ scan w h f, v ≤ hi) (hlt : lo < hi) (hr : ∀ v ∈ scan w h f, -fltMax < v ∧ v < fltMax)
    (hf : ∀ v ∈ scan w h f, IsFloatNum 24 (-149) v) (hD : max |lo| |hi| ≤ 2 ^ (100 : Int)) :
    ∃ d g, gNormalizeFl nc true img = .ok d ∧ (d.flat nc).Wf ∧ (d.flat nc).Shows w h g ∧
      (∀ x < w, ∀ y < h, |g x y - (f x y / (2 * max |lo| |hi|) + 1 / 2)| ≤ 1 / 2097152) ∧
      (∀ x < w, ∀ y < h, f x y = 0 → g x y = 1 / 2) ∧
      ∀ x < w, ∀ y < h, ∀ x' < w, ∀ y' < h, f x y ≤ f x' y' → g x y ≤ g x' y' := by
  obtain ⟨d, e, a, b⟩ := gNormalizeFl_spec true hw hs (lo, hi) (minMax_found _ lo hi first rest hscan hlo hlo' hhi hhi' hr)
  have hm : hi ∈ scan w h f := by rw [hscan]; exact List.mem_cons_of_mem _ hhi
  refine ⟨d, _, e, a, b, ?_, ?_, ?_⟩
  · intro x hx y hy
    exact normOne_sym_near (hf _ hlo) (hf _ hm) hlt hD (hlo' _ (mem_scan hx hy)) (hhi' _ (mem_scan hx hy))
  · intro x _ y _ hz
    simp only [hz]
    unfold normOne normCoeffsFl
    rw [if_neg (ne_of_gt hlt)]
    simp only [if_true]
    rw [mul_zero, f32_zero, zero_add]
    decide +kernel
  · intro x _ y _ x' _ y' _ hle
    exact normOne_mono (normCoeffsFl_nonneg true hlt) hle

/-- C156 fails: a small range far from zero. The least sample becomes 1/2 instead of 0. -/
theorem c156_cancel_false :
    gNormalizeFl 1 false ⟨3, 1, 3, [16777001, 16777004, 16777001]⟩ = .ok ⟨3, 1, 3, [1 / 2, 1, 1 / 2]⟩ := by decide +kernel

/-- C156 fails: from zero on, the greatest sample does not become one. -/
theorem c156_white_false :
    gNormalizeFl 1 false ⟨2, 1, 2, [0, 41]⟩ = .ok ⟨2, 1, 2, [0, 16777215 / 16777216]⟩ := by decide +kernel

/-! ## Examples -/

example : gNormalizeFl 1 false ⟨3, 1, 3, [1, 0, 2]⟩ = .ok ⟨3, 1, 3, [1 / 2, 0, 1]⟩ := by decide +kernel

example : gNormalizeFl 1 true ⟨3, 1, 3, [1, -1, 2]⟩ = .ok ⟨3, 1, 3, [3 / 4, 1 / 4, 1]⟩ := by decide +kernel

/-- The hypotheses of `c156_normalize_partial` can be met. -/
example : scan 3 1 (fun x _ => [1, 0, 2].getD x (0 : Rat)) = 1 :: [0, 2] ∧ (2 : Rat) ∈ [0, 2] ∧ (0 : Rat) < 2 ∧
    ∀ v ∈ [1, 0, (2 : Rat)], IsFloatNum 24 (-149) v := by
  refine ⟨by decide +kernel, by simp, by norm_num, ?_⟩
  intro v hv
  simp only [List.mem_cons, List.not_mem_nil, or_false] at hv
  rcases hv with rfl | rfl | rfl
  · exact ⟨1, 0, by norm_num, by norm_num, by norm_num⟩
  · exact ⟨0, 0, by norm_num, by norm_num, by norm_num⟩
  · exact ⟨2, 0, by norm_num, by norm_num, by norm_num⟩

end Nx
