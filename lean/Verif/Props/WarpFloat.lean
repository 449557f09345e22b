import Verif.Model.WarpFloat
import Verif.Props.Warp
import Verif.Props.ScaleFloat
import Verif.Props.AxpyFloat

/-!
# C158: warping images in `float` arithmetic
-/

namespace Nx

variable {mode : WarpMode} {src : GImage Byte} {w h : Nat} {f : Nat → Nat → Byte} {xp yp s : Rat}

/-! ## Integer positions -/

theorem bilinearFl_zero (a b c d : Byte) : bilinearFl 0 0 a.toNat b.toNat c.toNat d.toNat = a.toNat := by
  have h1 : f32 1 = 1 := by have := f32_int (n := 1) (by norm_num); exact_mod_cast this
  have ha : f32 (a.toNat : Rat) = a.toNat := f32_nat (by have := a.toNat_lt; omega)
  unfold bilinearFl
  simp only [sub_zero, h1, one_mul, zero_mul, f32_zero, add_zero, ha]

theorem truncInt_int {i : Int} (h : |i| ≤ 16777216) : truncInt i = .ok i := by
  unfold truncInt
  rw [ratTrunc_int]
  rw [abs_le] at h
  exact if_pos (by unfold InI32; omega)

theorem warpPixelFl_int {i j : Int} (hi : |i| ≤ 16777216) (hj : |j| ≤ 16777216) (src : List Byte) (stride : Nat) :
    warpPixelFl mode w h src stride i j s = warpPixel mode w h src stride i j s := by
  unfold warpPixelFl warpPixel
  rw [truncInt_int hi, truncInt_int hj]
  simp only [Res.ok_bind, f32_int hi, f32_int hj, sub_self, f32_zero, bilinearFl_zero]
  have e : ∀ a b c d : Rat, bilinear 0 0 a b c d = a := by intro a b c d; unfold bilinear; ring
  simp only [e]
  cases warpIndex mode w i with
  | ok ix =>
    simp only [Res.ok_bind]
    cases warpIndex mode h j with
    | ok iy => cases ix <;> cases iy <;> rfl
    | fatal => rfl
    | ub => rfl
  | fatal => rfl
  | ub => rfl

/-- A loop that carries positions along gives the same as the loop that computes them. -/
theorem forLoop_carry {σ τ : Type} (n : Nat) (body : Nat → σ → Res σ) (body' : Nat → σ × τ → Res (σ × τ)) (P : Nat → τ)
    (hb : ∀ x d, x < n → body' x (d, P x) = (do let d ← body x d; pure (d, P (x + 1)))) :
    ∀ k x d, x + k = n → forLoop n body' x (d, P x) = (do let d ← forLoop n body x d; pure (d, P n)) := by
  intro k
  induction k with
  | zero =>
    intro x d hx
    have : x = n := by omega
    subst this
    rw [forLoop, if_neg (by omega), forLoop, if_neg (by omega)]
    rfl
  | succ k ih =>
    intro x d hx
    rw [forLoop, if_pos (by omega), forLoop, if_pos (by omega), hb x d (by omega)]
    cases e : body x d with
    | ok d' =>
      simp only [Res.ok_bind, Res.pure_eq]
      rw [ih (x + 1) d' (by omega)]
      rfl
    | fatal => rfl
    | ub => rfl

theorem forLoop_congr_body {σ : Type} (n : Nat) (b1 b2 : Nat → σ → Res σ) (hb : ∀ x d, x < n → b1 x d = b2 x d) :
    ∀ k x d, x + k = n → forLoop n b1 x d = forLoop n b2 x d := by
  intro k
  induction k with
  | zero =>
    intro x d hx
    rw [forLoop, if_neg (by omega), forLoop, if_neg (by omega)]
  | succ k ih =>
    intro x d hx
    rw [forLoop, if_pos (by omega), forLoop, if_pos (by omega), hb x d (by omega)]
    cases e : b2 x d with
    | ok d' =>
      simp only [Res.ok_bind]
      exact ih (x + 1) d' (by omega)
    | fatal => rfl
    | ub => rfl

theorem rowStart_int {y : Nat} {a b : Int} (hy : y ≤ 16777216) (h1 : |y * a| ≤ 16777216) (h2 : |y * a + b| ≤ 16777216) :
    rowStart y a b = ((y * a + b : Int) : Rat) := by
  unfold rowStart
  rw [f32_nat hy]
  have e1 : (y : Rat) * (a : Rat) = ((y * a : Int) : Rat) := by push_cast; ring
  rw [e1, f32_int h1]
  have e2 : ((y * a : Int) : Rat) + (b : Rat) = ((y * a + b : Int) : Rat) := by push_cast; ring
  rw [e2, f32_int h2]

/-- C158. A transformation with integers, such as a translation, a reflection or a rotation by a right angle, gives exactly the same as
exact arithmetic for all backgrounds. -/
theorem c158_integers (dw dh : Nat) (dest : List Byte) (dst sst : Nat) (src : List Byte) (τ : Nat → Int) (noise : Nat → Nat → Rat)
    (hh : dh ≤ 16777216)
    (hr : ∀ y < dh, |y * τ 3| ≤ 16777216 ∧ |y * τ 4| ≤ 16777216)
    (hp : ∀ y < dh, ∀ x ≤ dw, |y * τ 3 + τ 6 + x * τ 0| ≤ 16777216 ∧ |y * τ 4 + τ 7 + x * τ 1| ≤ 16777216) :
    warpAffineFl mode dw dh dest dst w h src sst (fun k => τ k) noise = warpAffine mode dw dh dest dst w h src sst (fun k => τ k) noise := by
  unfold warpAffineFl warpAffine
  by_cases ho : w * 2 > 2147483647 ∨ h * 2 > 2147483647
  · rw [if_pos ho, if_pos ho]
  rw [if_neg ho, if_neg ho]
  refine forLoop_congr_body dh _ _ ?_ dh 0 dest (by omega)
  intro y d hy
  let P : Nat → Rat × Rat := fun x => (((y * τ 3 + τ 6 + x * τ 0 : Int) : Rat), ((y * τ 4 + τ 7 + x * τ 1 : Int) : Rat))
  have h0 := hp y hy 0 (by omega)
  simp only [Nat.cast_zero, zero_mul, add_zero] at h0
  have e0 : (rowStart y (τ 3) (τ 6), rowStart y (τ 4) (τ 7)) = P 0 := by
    rw [rowStart_int (by omega) (hr y hy).1 h0.1, rowStart_int (by omega) (hr y hy).2 h0.2]
    simp only [P, Nat.cast_zero, zero_mul, add_zero]
  have := forLoop_carry dw (fun x d => do
    let b ← warpPixel mode w h src sst (y * τ 3 + τ 6 + x * τ 0) (y * τ 4 + τ 7 + x * τ 1) (noise x y)
    writeAt d (y * dst + x) b) (fun x (s : List Byte × Rat × Rat) => do
      let b ← warpPixelFl mode w h src sst s.2.1 s.2.2 (noise x y)
      let d ← writeAt s.1 (y * dst + x) b
      pure (d, posStep s.2.1 (τ 0), posStep s.2.2 (τ 1))) P (by
        intro x d hx
        have ha := hp y hy x (by omega)
        have hb := hp y hy (x + 1) (by omega)
        simp only [P]
        rw [warpPixelFl_int ha.1 ha.2]
        have e1 : posStep ((y * τ 3 + τ 6 + x * τ 0 : Int) : Rat) (τ 0) = ((y * τ 3 + τ 6 + (x + 1 : Nat) * τ 0 : Int) : Rat) := by
          unfold posStep
          rw [← f32_int hb.1]
          congr 1
          push_cast
          ring
        have e2 : posStep ((y * τ 4 + τ 7 + x * τ 1 : Int) : Rat) (τ 1) = ((y * τ 4 + τ 7 + (x + 1 : Nat) * τ 1 : Int) : Rat) := by
          unfold posStep
          rw [← f32_int hb.2]
          congr 1
          push_cast
          ring
        rw [e1, e2]
        push_cast
        cases warpPixel mode w h src sst (y * τ 3 + τ 6 + x * τ 0) (y * τ 4 + τ 7 + x * τ 1) (noise x y) <;> rfl) dw 0 d (by omega)
  rw [e0, this]
  cases forLoop dw (fun x d => do
    let b ← warpPixel mode w h src sst (y * τ 3 + τ 6 + x * τ 0) (y * τ 4 + τ 7 + x * τ 1) (noise x y)
    writeAt d (y * dst + x) b) 0 d <;> rfl

/-- A turn by a right angle of an image with three rows and four columns, and where it takes the pixels from. -/
example : warpAffineFl .repeat 3 4 (List.replicate 12 0) 3 4 3 [1, 2, 3, 4, 5, 6, 7, 8, 9, 10, 11, 12] 4
    (fun k => ((if k = 1 then -1 else if k = 3 then 1 else if k = 7 then 2 else 0 : Int) : Rat)) (fun _ _ => 0) =
      .ok [9, 5, 1, 10, 6, 2, 11, 7, 3, 12, 8, 4] := by decide +kernel

/-- C158. Pixels at integer positions inside the source are copied. -/
theorem c158_copy (hs : src.Shows w h f) (hw : w ≤ 16777216) (hh : h ≤ 16777216) {i j : Nat} (hi : i + 1 < w) (hj : j + 1 < h) :
    warpPixelFl mode w h src.data src.stride i j s = .ok (f i j) := by
  have := warpPixelFl_int (mode := mode) (w := w) (h := h) (s := s) (i := i) (j := j)
    (by rw [abs_of_nonneg (by omega)]; omega) (by rw [abs_of_nonneg (by omega)]; omega) src.data src.stride
  simp only [Int.cast_natCast] at this
  rw [this]
  exact c78_pixel hs (by omega) (by omega) hi hj

/-! ## The interpolation -/

theorem f32_unit {q : Rat} (h0 : 0 ≤ q) (h1 : q ≤ 1) : 0 ≤ f32 q ∧ f32 q ≤ 1 := by
  have e : f32 1 = 1 := by have := f32_int (n := 1) (by norm_num); exact_mod_cast this
  have := f32_mono h1
  rw [e] at this
  exact ⟨f32_nonneg h0, this⟩

theorem mul_close {p p' q q' e1 e2 : Rat} (hp : 0 ≤ p) (hp1 : p ≤ 1) (h1 : |p' - p| ≤ e1) (h2 : |q' - q| ≤ e2)
    (hq : |q'| ≤ 256) : |p' * q' - p * q| ≤ 256 * e1 + e2 := by
  have e : p' * q' - p * q = (p' - p) * q' + p * (q' - q) := by ring
  rw [e]
  refine (abs_add_le _ _).trans ?_
  rw [abs_mul, abs_mul, abs_of_nonneg hp]
  have a := mul_le_mul h1 hq (abs_nonneg _) ((abs_nonneg _).trans h1)
  have b : p * |q' - q| ≤ 1 * e2 := mul_le_mul hp1 h2 (abs_nonneg _) (by norm_num)
  linarith

theorem mix_range {t a b : Rat} (h0 : 0 ≤ t) (h1 : t ≤ 1) (ha : 0 ≤ a ∧ a ≤ 255) (hb : 0 ≤ b ∧ b ≤ 255) :
    0 ≤ (1 - t) * a + t * b ∧ (1 - t) * a + t * b ≤ 255 := by
  constructor
  · nlinarith [mul_nonneg (sub_nonneg.mpr h1) ha.1, mul_nonneg h0 hb.1]
  · nlinarith [mul_nonneg (sub_nonneg.mpr h1) (sub_nonneg.mpr ha.2), mul_nonneg h0 (sub_nonneg.mpr hb.2)]

theorem part_range {t a : Rat} (h0 : 0 ≤ t) (h1 : t ≤ 1) (ha : 0 ≤ a ∧ a ≤ 255) : |t * a| ≤ 255 := by
  rw [abs_of_nonneg (mul_nonneg h0 ha.1)]
  nlinarith [mul_nonneg (sub_nonneg.mpr h1) ha.1, ha.2]

/-- One linear interpolation of numbers that are nearly known. -/
theorem mix_near {t t' r' a b a' b' e : Rat} (h0 : 0 ≤ t) (h1 : t ≤ 1) (ht : |t' - t| ≤ 1 / 16000000) (hr : |r' - (1 - t)| ≤ 1 / 7900000)
    (ha : 0 ≤ a ∧ a ≤ 255) (hb : 0 ≤ b ∧ b ≤ 255) (ha' : |a' - a| ≤ e) (hb' : |b' - b| ≤ e) (he : e ≤ 1 / 5000) :
    |f32 (f32 (r' * a') + f32 (t' * b')) - ((1 - t) * a + t * b)| ≤ 2 * e + 1 / 8000 := by
  have bound : ∀ {p p'}, 0 ≤ p ∧ p ≤ 255 → |p' - p| ≤ e → |p'| ≤ 256 := by
    intro p p' hp hp'
    rw [abs_le] at hp' ⊢
    constructor <;> linarith [hp.1, hp.2]
  have p1 := mul_close (sub_nonneg.mpr h1) (by linarith) hr ha' (bound ha ha')
  have p2 := mul_close h0 h1 ht hb' (bound hb hb')
  have q1 := f32_shift p1 (part_range (sub_nonneg.mpr h1) (by linarith) ha)
  have q2 := f32_shift p2 (part_range h0 h1 hb)
  have hm := mix_range h0 h1 ha hb
  have q3 : |f32 (r' * a') + f32 (t' * b') - ((1 - t) * a + t * b)| ≤ 2 * e + 1 / 10000 := by
    rw [abs_le] at q1 q2 ⊢
    constructor <;> linarith [q1.1, q1.2, q2.1, q2.2]
  have q4 := f32_shift q3 (B := 255) (by rw [abs_of_nonneg hm.1]; exact hm.2)
  linarith

/-- The interpolation with rounding is close to the exact one. -/
theorem bilinearFl_near {u v a b c d : Rat} (hu0 : 0 ≤ u) (hu1 : u ≤ 1) (hv0 : 0 ≤ v) (hv1 : v ≤ 1) (ha : 0 ≤ a ∧ a ≤ 255)
    (hb : 0 ≤ b ∧ b ≤ 255) (hc : 0 ≤ c ∧ c ≤ 255) (hd : 0 ≤ d ∧ d ≤ 255) :
    |bilinearFl (f32 u) (f32 v) a b c d - bilinear u v a b c d| ≤ 1 / 2000 ∧ 0 ≤ bilinearFl (f32 u) (f32 v) a b c d := by
  have near : ∀ {t : Rat}, 0 ≤ t → t ≤ 1 → |f32 t - t| ≤ 1 / 16000000 ∧ |f32 (1 - f32 t) - (1 - t)| ≤ 1 / 7900000 := by
    intro t h0 h1
    have a1 := f32_near t
    rw [abs_of_nonneg h0] at a1
    have a2 : |f32 t - t| ≤ 1 / 16000000 := by linarith
    refine ⟨a2, ?_⟩
    have a3 : |1 - f32 t - (1 - t)| ≤ 1 / 16000000 := by
      rw [abs_le] at a2 ⊢
      constructor <;> linarith [a2.1, a2.2]
    have a4 := f32_shift a3 (B := 1) (by rw [abs_of_nonneg (by linarith)]; linarith)
    linarith
  obtain ⟨u1, u2⟩ := near hu0 hu1
  obtain ⟨v1, v2⟩ := near hv0 hv1
  have z : ∀ p : Rat, |p - p| ≤ 0 := fun p => by rw [sub_self, abs_zero]
  have r1 := mix_near hu0 hu1 u1 u2 ha hb (z a) (z b) (by norm_num)
  have r2 := mix_near hu0 hu1 u1 u2 hc hd (z c) (z d) (by norm_num)
  have r3 := mix_near hv0 hv1 v1 v2 (mix_range hu0 hu1 ha hb) (mix_range hu0 hu1 hc hd) r1 r2 (by norm_num)
  unfold bilinearFl bilinear
  refine ⟨r3.trans (by norm_num), ?_⟩
  have fu := f32_unit hu0 hu1
  have fv := f32_unit hv0 hv1
  have gu : 0 ≤ f32 (1 - f32 u) := f32_nonneg (by linarith)
  have gv : 0 ≤ f32 (1 - f32 v) := f32_nonneg (by linarith)
  have row : ∀ p q : Rat, 0 ≤ p → 0 ≤ q → 0 ≤ f32 (f32 (f32 (1 - f32 u) * p) + f32 (f32 u * q)) := fun p q hp hq =>
    f32_nonneg (add_nonneg (f32_nonneg (mul_nonneg gu hp)) (f32_nonneg (mul_nonneg fu.1 hq)))
  exact f32_nonneg (add_nonneg (f32_nonneg (mul_nonneg gv (row a b ha.1 hb.1))) (f32_nonneg (mul_nonneg fv.1 (row c d hc.1 hd.1))))

theorem clampByte_close {q : Rat} (h0 : 0 ≤ q) (h1 : q ≤ 255 + 1 / 2000) :
    ∃ I, truncInt q = .ok I ∧ byteVal (clampByte I) ≤ q ∧ q < byteVal (clampByte I) + 1 := by
  by_cases h : q ≤ 255
  · exact clampByte_floor h0 h
  · have e : ratTrunc q = 255 := by
      rw [ratTrunc_nonneg h0, Int.floor_eq_iff]
      push_cast
      constructor <;> linarith
    refine ⟨255, ?_, ?_⟩
    · unfold truncInt
      rw [e]
      exact if_pos (by decide)
    · have e2 : byteVal (clampByte 255) = 255 := by decide +kernel
      rw [e2]
      constructor <;> linarith

/-- C158. Inside the source, the pixel is the truncated value of the interpolation up to 1/2000. -/
theorem c158_pixel (hs : src.Shows w h f) (hw : w ≤ 16777216) (hh : h ≤ 16777216) (hx0 : 0 ≤ xp) (hx1 : xp < (w : Rat) - 1)
    (hy0 : 0 ≤ yp) (hy1 : yp < (h : Rat) - 1) :
    ∃ c, warpPixelFl mode w h src.data src.stride xp yp s = .ok c ∧
      byteVal c ≤ bilinearAt (continued f Int.toNat Int.toNat) xp yp + 1 / 2000 ∧
      bilinearAt (continued f Int.toNat Int.toNat) xp yp < byteVal c + 1 + 1 / 2000 := by
  have fx := fits_of hx0 hx1 (by omega)
  have fy := fits_of hy0 hy1 (by omega)
  obtain ⟨x1, x2⟩ := floor_inside hx0 hx1
  obtain ⟨y1, y2⟩ := floor_inside hy0 hy1
  have ex := ratTrunc_nonneg hx0
  have ey := ratTrunc_nonneg hy0
  have ix : warpIndex mode w ⌊xp⌋ = .ok (some (⌊xp⌋, ⌊xp⌋ + 1)) := by
    unfold warpIndex
    rw [if_neg (by omega)]
    cases mode <;> simp only
    · rw [if_neg (by omega)]
    · rw [if_neg (by omega)]
    · rw [if_neg (by omega)]
    · rw [if_neg (by omega), if_neg (by omega)]
    · rw [if_neg (by omega), if_neg (by omega), if_neg (by omega)]
  have iy : warpIndex mode h ⌊yp⌋ = .ok (some (⌊yp⌋, ⌊yp⌋ + 1)) := by
    unfold warpIndex
    rw [if_neg (by omega)]
    cases mode <;> simp only
    · rw [if_neg (by omega)]
    · rw [if_neg (by omega)]
    · rw [if_neg (by omega)]
    · rw [if_neg (by omega), if_neg (by omega)]
    · rw [if_neg (by omega), if_neg (by omega), if_neg (by omega)]
  have hb : ∀ i j : Int, 0 ≤ byteVal (f i.toNat j.toNat) ∧ byteVal (f i.toNat j.toNat) ≤ 255 := fun _ _ => ⟨byteVal_nonneg _, byteVal_le _⟩
  have hn := bilinearFl_near (Int.fract_nonneg xp) (Int.fract_lt_one xp).le (Int.fract_nonneg yp) (Int.fract_lt_one yp).le
    (hb ⌊xp⌋ ⌊yp⌋) (hb (⌊xp⌋ + 1) ⌊yp⌋) (hb ⌊xp⌋ (⌊yp⌋ + 1)) (hb (⌊xp⌋ + 1) (⌊yp⌋ + 1))
  have hr := bilinear_range (Int.fract_nonneg xp) (Int.fract_lt_one xp).le (Int.fract_nonneg yp) (Int.fract_lt_one yp).le
    (hb ⌊xp⌋ ⌊yp⌋) (hb (⌊xp⌋ + 1) ⌊yp⌋) (hb ⌊xp⌋ (⌊yp⌋ + 1)) (hb (⌊xp⌋ + 1) (⌊yp⌋ + 1))
  have hn1 := abs_le.mp hn.1
  obtain ⟨I, eI, hI⟩ := clampByte_close hn.2 (by linarith [hr.2, hn1.2])
  refine ⟨clampByte I, ?_, ?_, ?_⟩
  · unfold warpPixelFl
    rw [(truncInt_fits fx).1, (truncInt_fits fy).1, ex, ey]
    simp only [Res.ok_bind]
    rw [ix, iy]
    simp only [Res.ok_bind]
    rw [readFour_spec hs (by omega) (by omega) (by omega) (by omega)]
    simp only [Res.ok_bind]
    rw [f32_int (n := ⌊xp⌋) (by rw [abs_of_nonneg x1]; omega), f32_int (n := ⌊yp⌋) (by rw [abs_of_nonneg y1]; omega)]
    have eI' : truncInt (bilinearFl (f32 (xp - ⌊xp⌋)) (f32 (yp - ⌊yp⌋)) (f ⌊xp⌋.toNat ⌊yp⌋.toNat).toNat (f (⌊xp⌋ + 1).toNat ⌊yp⌋.toNat).toNat
      (f ⌊xp⌋.toNat (⌊yp⌋ + 1).toNat).toNat (f (⌊xp⌋ + 1).toNat (⌊yp⌋ + 1).toNat).toNat) = .ok I := eI
    rw [eI']
    rfl
  · have : bilinearAt (continued f Int.toNat Int.toNat) xp yp = bilinear (Int.fract xp) (Int.fract yp) (byteVal (f ⌊xp⌋.toNat ⌊yp⌋.toNat))
      (byteVal (f (⌊xp⌋ + 1).toNat ⌊yp⌋.toNat)) (byteVal (f ⌊xp⌋.toNat (⌊yp⌋ + 1).toNat)) (byteVal (f (⌊xp⌋ + 1).toNat (⌊yp⌋ + 1).toNat)) := rfl
    rw [this]
    linarith [hn1.2, hI.1]
  · have : bilinearAt (continued f Int.toNat Int.toNat) xp yp = bilinear (Int.fract xp) (Int.fract yp) (byteVal (f ⌊xp⌋.toNat ⌊yp⌋.toNat))
      (byteVal (f (⌊xp⌋ + 1).toNat ⌊yp⌋.toNat)) (byteVal (f ⌊xp⌋.toNat (⌊yp⌋ + 1).toNat)) (byteVal (f (⌊xp⌋ + 1).toNat (⌊yp⌋ + 1).toNat)) := rfl
    rw [this]
    linarith [hn1.1, hI.2]

example : warpPixelFl .black 2 2 [100, 200, 0, 50] 2 (1 / 2) (1 / 4) 0 = .ok 118 := by decide +kernel

/-- C158. A constant image does not stay constant: three becomes two at one tenth of a pixel. -/
theorem c158_constant_false : warpPixelFl .black 2 2 [3, 3, 3, 3] 2 (f32 (1 / 10)) 0 0 = .ok 2 ∧
    warpPixel .black 2 2 [3, 3, 3, 3] 2 (f32 (1 / 10)) 0 0 = .ok 3 := by decide +kernel

/-! ## The positions -/

/-- The position after `n` pixels of a row. -/
def posAfter (p a : Rat) : Nat → Rat
  | 0 => p
  | n + 1 => posStep (posAfter p a n) a

/-- C158. The error of the position grows at most linearly along a row: by less than 2⁻²³ of the largest position for every pixel. -/
theorem c158_position {p a B : Rat} {n : Nat} (hn : n ≤ 1048576) (hB : ∀ k ≤ n, |p + k * a| ≤ B) :
    |posAfter p a n - (p + n * a)| ≤ n * (B + 1) / 8388608 := by
  induction n with
  | zero => simp [posAfter]
  | succ n ih =>
    have i := ih (by omega) (fun k hk => hB k (by omega))
    have b := hB (n + 1) le_rfl
    have b0 : 0 ≤ B := (abs_nonneg _).trans b
    have e : posAfter p a n + a - (p + ((n + 1 : Nat) : Rat) * a) = posAfter p a n - (p + n * a) := by push_cast; ring
    have j : |posAfter p a n + a - (p + ((n + 1 : Nat) : Rat) * a)| ≤ n * (B + 1) / 8388608 := by rw [e]; exact i
    have k := f32_shift j b
    have hn' : (n : Rat) ≤ 1048576 := by exact_mod_cast (by omega : n ≤ 1048576)
    have l : (n : Rat) * (B + 1) ≤ 1048576 * (B + 1) := mul_le_mul_of_nonneg_right hn' (by linarith)
    show |f32 (posAfter p a n + a) - _| ≤ _
    refine k.trans ?_
    push_cast
    linarith

/-- C158. The positions of all pixels: from the start of the row with one rounded step for every pixel. -/
theorem c158_loops (dw dh : Nat) (dest : List Byte) (dst sst : Nat) (src : List Byte) (t : Nat → Rat) (noise : Nat → Nat → Rat)
    (hw : w * 2 ≤ 2147483647) (hh : h * 2 ≤ 2147483647) :
    warpAffineFl mode dw dh dest dst w h src sst t noise = forLoop dh (fun y d => forLoop dw (fun x d => do
      let b ← warpPixelFl mode w h src sst (posAfter (rowStart y (t 3) (t 6)) (t 0) x) (posAfter (rowStart y (t 4) (t 7)) (t 1) x)
        (noise x y)
      writeAt d (y * dst + x) b) 0 d) 0 dest := by
  unfold warpAffineFl
  rw [if_neg (by omega)]
  refine forLoop_congr_body dh _ _ ?_ dh 0 dest (by omega)
  intro y d hy
  have := forLoop_carry dw (fun x d => do
    let b ← warpPixelFl mode w h src sst (posAfter (rowStart y (t 3) (t 6)) (t 0) x) (posAfter (rowStart y (t 4) (t 7)) (t 1) x) (noise x y)
    writeAt d (y * dst + x) b) (fun x (s : List Byte × Rat × Rat) => do
      let b ← warpPixelFl mode w h src sst s.2.1 s.2.2 (noise x y)
      let d ← writeAt s.1 (y * dst + x) b
      pure (d, posStep s.2.1 (t 0), posStep s.2.2 (t 1)))
    (fun x => (posAfter (rowStart y (t 3) (t 6)) (t 0) x, posAfter (rowStart y (t 4) (t 7)) (t 1) x)) (by
        intro x d hx
        simp only [posAfter]
        cases warpPixelFl mode w h src sst (posAfter (rowStart y (t 3) (t 6)) (t 0) x) (posAfter (rowStart y (t 4) (t 7)) (t 1) x)
          (noise x y) <;> rfl) dw 0 d (by omega)
  simp only [posAfter] at this
  rw [this]
  cases forLoop dw (fun x d => do
    let b ← warpPixelFl mode w h src sst (posAfter (rowStart y (t 3) (t 6)) (t 0) x) (posAfter (rowStart y (t 4) (t 7)) (t 1) x) (noise x y)
    writeAt d (y * dst + x) b) 0 d <;> rfl

/-- C158. The error of the position of pixel `(n, y)` against the exact transformation. -/
theorem c158_total {a b c B : Rat} {y n : Nat} (hy : y ≤ 16777216) (hn : n ≤ 1048576) (hB1 : B ≤ 2097152) (h1 : |y * a| ≤ B)
    (hB : ∀ k ≤ n, |y * a + b + k * c| ≤ B) :
    |posAfter (rowStart y a b) c n - (y * a + b + n * c)| ≤ (n + 2) * (B + 2) / 8388608 := by
  have b0 : 0 ≤ B := (abs_nonneg _).trans h1
  have r : |rowStart y a b - (y * a + b)| ≤ 2 * (B + 2) / 8388608 := by
    unfold rowStart
    rw [f32_nat hy]
    have a1 := f32_near (y * a)
    have a2 : |f32 (y * a) + b - (y * a + b)| ≤ B / 16777216 + 1 / 281474976710656 := by
      have : f32 (y * a) + b - (y * a + b) = f32 (y * a) - y * a := by ring
      rw [this]
      linarith
    have h2 := hB 0 (by omega)
    rw [Nat.cast_zero, zero_mul, add_zero] at h2
    have a3 := f32_shift a2 h2
    linarith
  have p := c158_position (p := rowStart y a b) (a := c) (B := B + 1) hn (by
    intro k hk
    have e : rowStart y a b + k * c = (rowStart y a b - (y * a + b)) + (y * a + b + k * c) := by ring
    rw [e]
    have := abs_add_le (rowStart y a b - (y * a + b)) (y * a + b + k * c)
    linarith [hB k hk])
  have e : posAfter (rowStart y a b) c n - (y * a + b + n * c) =
      (posAfter (rowStart y a b) c n - (rowStart y a b + n * c)) + (rowStart y a b - (y * a + b)) := by ring
  rw [e]
  refine (abs_add_le _ _).trans ?_
  linarith

/-- Positions of a row of 640 pixels of an image that is turned by a few degrees are off by less than one tenth of a pixel. -/
example : |posAfter (rowStart 479 (-1 / 8) 60) (127 / 128) 639 - (479 * (-1 / 8) + 60 + 639 * (127 / 128))| ≤ 1 / 10 := by
  refine (c158_total (y := 479) (n := 639) (B := 700) (by norm_num) (by norm_num) (by norm_num) ?_ ?_).trans (by norm_num)
  · norm_num [abs_le]
  · intro k hk
    have : (k : Rat) ≤ 639 := by exact_mod_cast hk
    have h0 : (0 : Rat) ≤ k := by positivity
    rw [abs_le]
    constructor <;> push_cast <;> linarith

example : posAfter 0 (f32 (1 / 10)) 10 = 8388609 / 8388608 := by decide +kernel

/-- C158. The error is not that of a single rounding: after twenty steps of one tenth from 1000, it is more than ten thousand times as
large. -/
theorem c158_drift_false : 1 / 2100 < |posAfter 1000 (f32 (1 / 10)) 20 - (1000 + 20 * f32 (1 / 10))| ∧
    |f32 (1000 + 20 * f32 (1 / 10)) - (1000 + 20 * f32 (1 / 10))| < 1 / 30000000 := by
  have e : posAfter 1000 (f32 (1 / 10)) 20 - (1000 + 20 * f32 (1 / 10)) < -(1 / 2100) := by decide +kernel
  have e2 : -(1 / 30000000) < f32 (1000 + 20 * f32 (1 / 10)) - (1000 + 20 * f32 (1 / 10)) ∧
      f32 (1000 + 20 * f32 (1 / 10)) - (1000 + 20 * f32 (1 / 10)) < 1 / 30000000 := by decide +kernel
  refine ⟨?_, abs_lt.mpr e2⟩
  rw [lt_abs]
  right
  linarith

/-! ## Positions and interpolation together -/

/-- Linear interpolation along a line. -/
def linearAt (a : Int → Rat) (x : Rat) : Rat := (1 - Int.fract x) * a ⌊x⌋ + Int.fract x * a (⌊x⌋ + 1)

theorem step_bound {a : Int → Rat} {L : Rat} (ha : ∀ i, |a (i + 1) - a i| ≤ L) (i : Int) (n : Nat) : |a (i + n) - a i| ≤ n * L := by
  induction n with
  | zero => simp
  | succ n ih =>
    have e : a (i + (n + 1 : Nat)) - a i = (a (i + n + 1) - a (i + n)) + (a (i + n) - a i) := by
      have : i + ((n + 1 : Nat) : Int) = i + n + 1 := by push_cast; ring
      rw [this]
      ring
    rw [e]
    refine (abs_add_le _ _).trans ?_
    have := ha (i + n)
    push_cast
    linarith

theorem linearAt_lip_le {a : Int → Rat} {L : Rat} (ha : ∀ i, |a (i + 1) - a i| ≤ L) {x y : Rat} (h : x ≤ y) :
    |linearAt a y - linearAt a x| ≤ L * (y - x) := by
  have hf := Int.floor_le_floor h
  have ex := Int.floor_add_fract x
  have ey := Int.floor_add_fract y
  have x0 := Int.fract_nonneg x
  have x1 := (Int.fract_lt_one x).le
  have y0 := Int.fract_nonneg y
  have scale : ∀ t d : Rat, 0 ≤ t → |d| ≤ L → |t * d| ≤ t * L := by
    intro t d ht hd
    rw [abs_mul, abs_of_nonneg ht]
    exact mul_le_mul_of_nonneg_left hd ht
  rcases eq_or_lt_of_le hf with e | e
  · have : linearAt a y - linearAt a x = (Int.fract y - Int.fract x) * (a (⌊x⌋ + 1) - a ⌊x⌋) := by
      unfold linearAt
      rw [← e]
      ring
    rw [this]
    have ed : Int.fract y - Int.fract x = y - x := by
      have : (⌊x⌋ : Rat) = ⌊y⌋ := by exact_mod_cast e
      linarith
    rw [ed]
    refine (scale _ _ (by linarith) (ha _)).trans (le_of_eq (mul_comm _ _))
  · obtain ⟨n, hn⟩ := Int.le.dest (show ⌊x⌋ + 1 ≤ ⌊y⌋ from e)
    have m := step_bound ha (⌊x⌋ + 1) n
    rw [hn] at m
    have e1 : linearAt a y - linearAt a x = Int.fract y * (a (⌊y⌋ + 1) - a ⌊y⌋) + (a ⌊y⌋ - a (⌊x⌋ + 1)) +
        (1 - Int.fract x) * (a (⌊x⌋ + 1) - a ⌊x⌋) := by
      unfold linearAt
      ring
    rw [e1]
    have p := scale _ _ y0 (ha ⌊y⌋)
    have q := scale _ _ (sub_nonneg.mpr x1) (ha ⌊x⌋)
    have t := abs_add_three (Int.fract y * (a (⌊y⌋ + 1) - a ⌊y⌋)) (a ⌊y⌋ - a (⌊x⌋ + 1)) ((1 - Int.fract x) * (a (⌊x⌋ + 1) - a ⌊x⌋))
    have hn' : (⌊x⌋ : Rat) + 1 + n = ⌊y⌋ := by exact_mod_cast hn
    have : L * (y - x) = Int.fract y * L + n * L + (1 - Int.fract x) * L := by
      have ed : y - x = Int.fract y + n + (1 - Int.fract x) := by linarith
      rw [ed]
      ring
    linarith

theorem linearAt_lip {a : Int → Rat} {L : Rat} (ha : ∀ i, |a (i + 1) - a i| ≤ L) (x y : Rat) :
    |linearAt a y - linearAt a x| ≤ L * |y - x| := by
  rcases le_total x y with h | h
  · rw [abs_of_nonneg (sub_nonneg.mpr h)]
    exact linearAt_lip_le ha h
  · rw [abs_sub_comm y x, abs_of_nonneg (sub_nonneg.mpr h), abs_sub_comm]
    exact linearAt_lip_le ha h

/-- The interpolation of grey levels changes by at most 255 per pixel in each direction. -/
theorem bilinearAt_lip {g : Int → Int → Rat} (hg : ∀ i j, 0 ≤ g i j ∧ g i j ≤ 255) (x y x' y' : Rat) :
    |bilinearAt g x' y' - bilinearAt g x y| ≤ 255 * (|x' - x| + |y' - y|) := by
  have e : ∀ x y, bilinearAt g x y = linearAt (fun j => linearAt (fun i => g i j) x) y := fun _ _ => rfl
  have hl : ∀ x j, 0 ≤ linearAt (fun i => g i j) x ∧ linearAt (fun i => g i j) x ≤ 255 := fun x j =>
    mix_range (Int.fract_nonneg x) (Int.fract_lt_one x).le (hg _ _) (hg _ _)
  have h1 : |bilinearAt g x' y' - bilinearAt g x' y| ≤ 255 * |y' - y| := by
    rw [e, e]
    refine linearAt_lip (fun j => ?_) y y'
    rw [abs_le]
    constructor <;> linarith [(hl x' j).1, (hl x' j).2, (hl x' (j + 1)).1, (hl x' (j + 1)).2]
  have h2 : |bilinearAt g x' y - bilinearAt g x y| ≤ 255 * |x' - x| := by
    have row : ∀ j, |linearAt (fun i => g i j) x' - linearAt (fun i => g i j) x| ≤ 255 * |x' - x| := fun j =>
      linearAt_lip (fun i => by
        rw [abs_le]
        constructor <;> linarith [(hg i j).1, (hg i j).2, (hg (i + 1) j).1, (hg (i + 1) j).2]) x x'
    rw [e, e]
    have r1 := row ⌊y⌋
    have r2 := row (⌊y⌋ + 1)
    have f0 := Int.fract_nonneg y
    have f1 := (Int.fract_lt_one y).le
    have ed : linearAt (fun j => linearAt (fun i => g i j) x') y - linearAt (fun j => linearAt (fun i => g i j) x) y =
        (1 - Int.fract y) * (linearAt (fun i => g i ⌊y⌋) x' - linearAt (fun i => g i ⌊y⌋) x) +
        Int.fract y * (linearAt (fun i => g i (⌊y⌋ + 1)) x' - linearAt (fun i => g i (⌊y⌋ + 1)) x) := by
      show (1 - Int.fract y) * linearAt (fun i => g i ⌊y⌋) x' + Int.fract y * linearAt (fun i => g i (⌊y⌋ + 1)) x' -
        ((1 - Int.fract y) * linearAt (fun i => g i ⌊y⌋) x + Int.fract y * linearAt (fun i => g i (⌊y⌋ + 1)) x) = _
      ring
    rw [ed]
    refine (abs_add_le _ _).trans ?_
    rw [abs_mul, abs_mul, abs_of_nonneg f0, abs_of_nonneg (sub_nonneg.mpr f1)]
    have m1 := mul_le_mul_of_nonneg_left r1 (sub_nonneg.mpr f1)
    have m2 := mul_le_mul_of_nonneg_left r2 f0
    linarith
  have e2 : bilinearAt g x' y' - bilinearAt g x y = (bilinearAt g x' y' - bilinearAt g x' y) + (bilinearAt g x' y - bilinearAt g x y) := by ring
  rw [e2]
  refine (abs_add_le _ _).trans ?_
  linarith

/-- C158. The pixel of the destination against the exact transformation and interpolation, for positions that are inside the source by
more than their error `e`, for all backgrounds. -/
theorem c158_inside (hs : src.Shows w h f) (hw : w ≤ 16777216) (hh : h ≤ 16777216) {t : Nat → Rat} {x y : Nat} {B e X Y : Rat}
    (hy : y ≤ 16777216) (hx : x ≤ 1048576) (hB1 : B ≤ 2097152) (ha : |y * t 3| ≤ B ∧ |y * t 4| ≤ B)
    (hB : ∀ k ≤ x, |y * t 3 + t 6 + k * t 0| ≤ B ∧ |y * t 4 + t 7 + k * t 1| ≤ B)
    (he : (x + 2) * (B + 2) / 8388608 ≤ e) (hX : X = y * t 3 + t 6 + x * t 0) (hY : Y = y * t 4 + t 7 + x * t 1)
    (hX0 : e ≤ X) (hX1 : X + e < (w : Rat) - 1) (hY0 : e ≤ Y) (hY1 : Y + e < (h : Rat) - 1) :
    ∃ c, warpPixelFl mode w h src.data src.stride (posAfter (rowStart y (t 3) (t 6)) (t 0) x)
        (posAfter (rowStart y (t 4) (t 7)) (t 1) x) s = .ok c ∧
      byteVal c ≤ bilinearAt (continued f Int.toNat Int.toNat) X Y + 510 * e + 1 / 2000 ∧
      bilinearAt (continued f Int.toNat Int.toNat) X Y < byteVal c + 1 + 510 * e + 1 / 2000 := by
  have px := c158_total hy hx hB1 ha.1 (fun k hk => (hB k hk).1)
  have py := c158_total hy hx hB1 ha.2 (fun k hk => (hB k hk).2)
  rw [← hX] at px
  rw [← hY] at py
  have px' := abs_le.mp (px.trans he)
  have py' := abs_le.mp (py.trans he)
  obtain ⟨c, h1, h2, h3⟩ := c158_pixel (mode := mode) (s := s) hs hw hh
    (xp := posAfter (rowStart y (t 3) (t 6)) (t 0) x) (yp := posAfter (rowStart y (t 4) (t 7)) (t 1) x)
    (by linarith [px'.1]) (by linarith [px'.2]) (by linarith [py'.1]) (by linarith [py'.2])
  have hl := bilinearAt_lip (continued_range (f := f) Int.toNat Int.toNat) X Y
    (posAfter (rowStart y (t 3) (t 6)) (t 0) x) (posAfter (rowStart y (t 4) (t 7)) (t 1) x)
  have hl' := abs_le.mp (hl.trans (show _ ≤ 510 * e by linarith))
  exact ⟨c, h1, by linarith [hl'.2], by linarith [hl'.1]⟩

/-- C158. Outside the source by more than the error of the position, the background is taken. -/
theorem c158_background (hm : mode = .black ∨ mode = .white) (hw : 0 < w) (hh : 0 < h) {t : Nat → Rat} {x y : Nat} {B e X Y : Rat}
    (hy : y ≤ 16777216) (hx : x ≤ 1048576) (hB1 : B ≤ 2097152) (ha : |y * t 3| ≤ B ∧ |y * t 4| ≤ B)
    (hB : ∀ k ≤ x, |y * t 3 + t 6 + k * t 0| ≤ B ∧ |y * t 4 + t 7 + k * t 1| ≤ B)
    (he : (x + 2) * (B + 2) / 8388608 ≤ e) (he1 : e ≤ 1000000) (hX : X = y * t 3 + t 6 + x * t 0) (hY : Y = y * t 4 + t 7 + x * t 1)
    (ho : (X + e ≤ -1 ∨ (w : Rat) - 1 ≤ X - e) ∨ (Y + e ≤ -1 ∨ (h : Rat) - 1 ≤ Y - e)) (src : List Byte) (stride : Nat) :
    warpPixelFl mode w h src stride (posAfter (rowStart y (t 3) (t 6)) (t 0) x) (posAfter (rowStart y (t 4) (t 7)) (t 1) x) s =
      .ok (if mode = .white then 255 else 0) := by
  have px := c158_total hy hx hB1 ha.1 (fun k hk => (hB k hk).1)
  have py := c158_total hy hx hB1 ha.2 (fun k hk => (hB k hk).2)
  rw [← hX] at px
  rw [← hY] at py
  have px' := abs_le.mp (px.trans he)
  have py' := abs_le.mp (py.trans he)
  have bx := abs_le.mp (hB x le_rfl).1
  have by' := abs_le.mp (hB x le_rfl).2
  rw [← hX] at bx
  rw [← hY] at by'
  generalize posAfter (rowStart y (t 3) (t 6)) (t 0) x = xp at *
  generalize posAfter (rowStart y (t 4) (t 7)) (t 1) x = yp at *
  have rx : IntRange xp := ⟨by linarith [px'.1], by linarith [px'.2]⟩
  have ry : IntRange yp := ⟨by linarith [py'.1], by linarith [py'.2]⟩
  have ho' : Outside w xp ∨ Outside h yp := by
    rcases ho with (o | o) | (o | o)
    · exact Or.inl (Or.inl (by linarith [px'.2]))
    · exact Or.inl (Or.inr (by linarith [px'.1]))
    · exact Or.inr (Or.inl (by linarith [py'.2]))
    · exact Or.inr (Or.inr (by linarith [py'.1]))
  have hidx : ∀ (n : Nat) (i : Int), i ≠ 2147483647 →
      warpIndex mode n i = if i < 0 ∨ i ≥ (n : Int) - 1 then .ok none else .ok (some (i, i + 1)) := by
    intro n i hi
    unfold warpIndex
    simp only
    rw [if_neg hi]
    rcases hm with e | e <;> rw [e]
  have hbg : warpBackground mode s = .ok (if mode = .white then 255 else 0) := by
    rcases hm with e | e <;> rw [e] <;> rfl
  rw [← hbg]
  unfold warpPixelFl
  rw [(truncInt_fits rx).1, (truncInt_fits ry).1]
  simp only [Res.ok_bind]
  rw [hidx w _ (truncInt_fits rx).2, hidx h _ (truncInt_fits ry).2]
  rcases ho' with ho' | ho'
  · rw [if_pos (trunc_outside hw ho')]
    simp only [Res.ok_bind]
    split <;> rfl
  · rw [if_pos (trunc_outside hh ho')]
    split <;> rfl

/-- C158. The whole destination, for a transformation that takes all its pixels inside the source by more than the error `e`. -/
theorem c158_image (hs : src.Shows w h f) (hw : w ≤ 16777216) (hh : h ≤ 16777216) {t : Nat → Rat} {dw dh dst : Nat} {dest : List Byte}
    {B e : Rat} (noise : Nat → Nat → Rat) (hst : dw ≤ dst) (hd : dest.length = dst * dh) (hdh : dh ≤ 16777216) (hdw : dw ≤ 1048576)
    (hB1 : B ≤ 2097152) (ha : ∀ y < dh, |y * t 3| ≤ B ∧ |y * t 4| ≤ B)
    (hB : ∀ y < dh, ∀ x < dw, |y * t 3 + t 6 + x * t 0| ≤ B ∧ |y * t 4 + t 7 + x * t 1| ≤ B)
    (he : (dw + 2) * (B + 2) / 8388608 ≤ e)
    (hX : ∀ y < dh, ∀ x < dw, e ≤ y * t 3 + t 6 + x * t 0 ∧ y * t 3 + t 6 + x * t 0 + e < (w : Rat) - 1)
    (hY : ∀ y < dh, ∀ x < dw, e ≤ y * t 4 + t 7 + x * t 1 ∧ y * t 4 + t 7 + x * t 1 + e < (h : Rat) - 1) :
    ∃ (d : List Byte) (S : Nat → Nat → Byte), warpAffineFl mode dw dh dest dst w h src.data src.stride t noise = .ok d ∧ d.length = dest.length ∧
      ∀ x y : Nat, x < dw → y < dh → d[y * dst + x]? = some (S x y) ∧
        byteVal (S x y) ≤ bilinearAt (continued f Int.toNat Int.toNat) (y * t 3 + t 6 + x * t 0) (y * t 4 + t 7 + x * t 1) + 510 * e + 1 / 2000 ∧
        bilinearAt (continued f Int.toNat Int.toNat) (y * t 3 + t 6 + x * t 0) (y * t 4 + t 7 + x * t 1) <
          byteVal (S x y) + 1 + 510 * e + 1 / 2000 := by
  have pix : ∀ x y : Nat, x < dw → y < dh → ∃ c, warpPixelFl mode w h src.data src.stride (posAfter (rowStart y (t 3) (t 6)) (t 0) x)
        (posAfter (rowStart y (t 4) (t 7)) (t 1) x) (noise x y) = .ok c ∧
      byteVal c ≤ bilinearAt (continued f Int.toNat Int.toNat) (y * t 3 + t 6 + x * t 0) (y * t 4 + t 7 + x * t 1) + 510 * e + 1 / 2000 ∧
      bilinearAt (continued f Int.toNat Int.toNat) (y * t 3 + t 6 + x * t 0) (y * t 4 + t 7 + x * t 1) < byteVal c + 1 + 510 * e + 1 / 2000 := by
    intro x y hx hy
    have b0 : 0 ≤ B := (abs_nonneg _).trans (ha y hy).1
    have hx' : (x : Rat) ≤ dw := by exact_mod_cast hx.le
    have := mul_le_mul_of_nonneg_right (show (x : Rat) + 2 ≤ dw + 2 by linarith) (show 0 ≤ B + 2 by linarith)
    exact c158_inside hs hw hh (by omega) (by omega) hB1 (ha y hy) (fun k hk => hB y hy k (by omega)) (by linarith) rfl rfl
      (hX y hy x hx).1 (hX y hy x hx).2 (hY y hy x hx).1 (hY y hy x hx).2
  obtain ⟨S, hS⟩ : ∃ S : Nat → Nat → Byte, ∀ x y, x < dw → y < dh →
      warpPixelFl mode w h src.data src.stride (posAfter (rowStart y (t 3) (t 6)) (t 0) x)
        (posAfter (rowStart y (t 4) (t 7)) (t 1) x) (noise x y) = .ok (S x y) ∧
      byteVal (S x y) ≤ bilinearAt (continued f Int.toNat Int.toNat) (y * t 3 + t 6 + x * t 0) (y * t 4 + t 7 + x * t 1) + 510 * e + 1 / 2000 ∧
      bilinearAt (continued f Int.toNat Int.toNat) (y * t 3 + t 6 + x * t 0) (y * t 4 + t 7 + x * t 1) < byteVal (S x y) + 1 + 510 * e + 1 / 2000 := by
    refine ⟨fun x y => if hc : x < dw ∧ y < dh then (pix x y hc.1 hc.2).choose else 0, fun x y hx hy => ?_⟩
    simp only [dif_pos (And.intro hx hy)]
    exact (pix x y hx hy).choose_spec
  obtain ⟨d, e1, hF⟩ := fill_spec (st := dst) (H := dh) (w := dw) (f := S) (d0 := dest)
    (body := fun y x d => do
      let b ← warpPixelFl mode w h src.data src.stride (posAfter (rowStart y (t 3) (t 6)) (t 0) x)
        (posAfter (rowStart y (t 4) (t 7)) (t 1) x) (noise x y)
      writeAt d (y * dst + x) b) hst hd (by
      intro y x d' hy hx hd'
      rw [(hS x y hx hy).1]
      simp only [Res.ok_bind]
      exact writeAt_ok _ (by rw [hd']; exact pixIdx_lt (by omega) hy))
  refine ⟨d, S, ?_, by rw [hF.1, hd], fun x y hx hy => ⟨hF.2 x y hx (Or.inl hy), (hS x y hx hy).2⟩⟩
  rw [c158_loops dw dh dest dst src.stride src.data t noise (by omega) (by omega)]
  exact e1

/-- Half the size, shifted by a quarter of a pixel. -/
example : ∃ d, warpAffineFl .black 2 1 [7, 7] 2 5 3 [10, 20, 30, 40, 50, 10, 20, 30, 40, 50, 10, 20, 30, 40, 50] 5
    (fun k => if k = 0 then 2 else if k = 4 then 2 else 1 / 4) (fun _ _ => 0) = .ok d ∧ d = [12, 32] := ⟨_, by decide +kernel, rfl⟩

/-! ## Nothing is undefined -/

theorem f32_abs_le {q B : Rat} (h : |q| ≤ B) : |f32 q| ≤ 2 * B + 1 := by
  have a := f32_near q
  have b := abs_add_le (f32 q - q) q
  rw [sub_add_cancel] at b
  have c := abs_nonneg q
  linarith

/-- The interpolation stays in the range of `int` for fractions of both signs. -/
theorem bilinearFl_fits {u v a b c d : Rat} (hu : |u| ≤ 1) (hv : |v| ≤ 1) (ha : |a| ≤ 255) (hb : |b| ≤ 255) (hc : |c| ≤ 255)
    (hd : |d| ≤ 255) : IntRange (bilinearFl u v a b c d) := by
  have comp : ∀ t : Rat, |t| ≤ 1 → |f32 (1 - t)| ≤ 5 := by
    intro t ht
    have := abs_le.mp ht
    have e := f32_abs_le (q := 1 - t) (B := 2) (by rw [abs_le]; constructor <;> linarith [this.1, this.2])
    linarith
  have prod : ∀ {p q P Q : Rat}, |p| ≤ P → |q| ≤ Q → |f32 (p * q)| ≤ 2 * (P * Q) + 1 := by
    intro p q P Q hp hq
    refine f32_abs_le ?_
    rw [abs_mul]
    exact mul_le_mul hp hq (abs_nonneg _) ((abs_nonneg _).trans hp)
  have sum : ∀ {p q P Q : Rat}, |p| ≤ P → |q| ≤ Q → |f32 (p + q)| ≤ 2 * (P + Q) + 1 := by
    intro p q P Q hp hq
    exact f32_abs_le ((abs_add_le p q).trans (add_le_add hp hq))
  have r1 := sum (prod (comp u hu) ha) (prod hu hb)
  have r2 := sum (prod (comp u hu) hc) (prod hu hd)
  have r3 := abs_le.mp (sum (prod (comp v hv) r1) (prod hv r2))
  unfold bilinearFl IntRange
  constructor
  · refine le_trans ?_ r3.1
    norm_num
  · refine lt_of_le_of_lt r3.2 ?_
    norm_num

theorem trunc_frac (q : Rat) : |q - ratTrunc q| ≤ 1 := by
  rw [abs_le]
  by_cases h0 : q < 0
  · rw [ratTrunc_neg h0]
    have l1 := Int.floor_le (-q)
    have l2 := Int.lt_floor_add_one (-q)
    push_cast
    constructor <;> linarith
  · rw [ratTrunc_nonneg (not_lt.mp h0)]
    have l1 := Int.floor_le q
    have l2 := Int.lt_floor_add_one q
    constructor <;> linarith

theorem f32_trunc_frac {q : Rat} (h : |q| ≤ 16777216) : |f32 (q - f32 (ratTrunc q))| ≤ 1 := by
  have a := abs_le.mp h
  have m1 := ratTrunc_mono a.1
  have m2 := ratTrunc_mono a.2
  have e1 : ratTrunc (-16777216) = -16777216 := by decide +kernel
  have e2 : ratTrunc 16777216 = 16777216 := by decide +kernel
  rw [e1] at m1
  rw [e2] at m2
  rw [f32_int (n := ratTrunc q) (abs_le.mpr ⟨m1, m2⟩)]
  have t := abs_le.mp (trunc_frac q)
  have g1 := f32_mono t.1
  have g2 := f32_mono t.2
  have f1 : f32 (-1) = -1 := by have := f32_int (n := -1) (by norm_num); exact_mod_cast this
  have f2 : f32 1 = 1 := by have := f32_int (n := 1) (by norm_num); exact_mod_cast this
  rw [f1] at g1
  rw [f2] at g2
  exact abs_le.mpr ⟨g1, g2⟩

/-- C158. Without reflection no position is read outside of the image, and every number can be converted. -/
theorem c158_safe (hm : mode ≠ .mirror) (hs : src.Shows w h f) (hw : 0 < w) (hh : 0 < h) (hx : |xp| ≤ 16777216) (hy : |yp| ≤ 16777216)
    (hn : 0 ≤ s ∧ s ≤ 1) : ∃ c, warpPixelFl mode w h src.data src.stride xp yp s = .ok c := by
  have ax := abs_le.mp hx
  have ay := abs_le.mp hy
  have rx : IntRange xp := ⟨by linarith [ax.1], by linarith [ax.2]⟩
  have ry : IntRange yp := ⟨by linarith [ay.1], by linarith [ay.2]⟩
  obtain ⟨c, hc⟩ := c78_safe hm hs hw hh rx ry hn
  unfold warpPixel at hc
  unfold warpPixelFl
  rw [(truncInt_fits rx).1, (truncInt_fits ry).1] at hc ⊢
  simp only [Res.ok_bind] at hc ⊢
  cases ei : warpIndex mode w (ratTrunc xp) with
  | fatal => rw [ei] at hc; exact absurd hc (by simp [Bind.bind, Res.bind])
  | ub => rw [ei] at hc; exact absurd hc (by simp [Bind.bind, Res.bind])
  | ok ix =>
    rw [ei] at hc
    simp only [Res.ok_bind] at hc ⊢
    cases ej : warpIndex mode h (ratTrunc yp) with
    | fatal => rw [ej] at hc; exact absurd hc (by simp [Bind.bind, Res.bind])
    | ub => rw [ej] at hc; exact absurd hc (by simp [Bind.bind, Res.bind])
    | ok iy =>
      rw [ej] at hc
      simp only [Res.ok_bind] at hc ⊢
      cases ix with
      | none => exact ⟨c, hc⟩
      | some ix =>
        cases iy with
        | none => exact ⟨c, hc⟩
        | some iy =>
          simp only at hc ⊢
          cases er : readFour src.data src.stride ix iy with
          | fatal => rw [er] at hc; exact absurd hc (by simp [Bind.bind, Res.bind])
          | ub => rw [er] at hc; exact absurd hc (by simp [Bind.bind, Res.bind])
          | ok p =>
            simp only [Res.ok_bind]
            have hb : ∀ b : Byte, |(b.toNat : Rat)| ≤ 255 := by
              intro b
              rw [abs_of_nonneg (by positivity)]
              exact_mod_cast (show b.toNat ≤ 255 by have := b.toNat_lt; omega)
            rw [(truncInt_fits (bilinearFl_fits (f32_trunc_frac hx) (f32_trunc_frac hy) (hb _) (hb _) (hb _) (hb _))).1]
            exact ⟨_, rfl⟩

/-- C158. The whole warp is defined for all transformations whose positions stay within 2²¹, wherever they lie. -/
theorem c158_defined (hm : mode ≠ .mirror) (hs : src.Shows w h f) (hw : 0 < w) (hh : 0 < h) (hsw : w * 2 ≤ 2147483647)
    (hsh : h * 2 ≤ 2147483647) {t : Nat → Rat} {dw dh dst : Nat} {dest : List Byte} {noise : Nat → Nat → Rat}
    (hn : ∀ x y, 0 ≤ noise x y ∧ noise x y ≤ 1) (hst : dw ≤ dst) (hd : dest.length = dst * dh) (hdh : dh ≤ 16777216) (hdw : dw ≤ 1048576)
    (ha : ∀ y < dh, |y * t 3| ≤ 2097152 ∧ |y * t 4| ≤ 2097152)
    (hB : ∀ y < dh, ∀ x < dw, |y * t 3 + t 6 + x * t 0| ≤ 2097152 ∧ |y * t 4 + t 7 + x * t 1| ≤ 2097152) :
    ∃ d, warpAffineFl mode dw dh dest dst w h src.data src.stride t noise = .ok d ∧ d.length = dest.length := by
  have pix : ∀ x y : Nat, x < dw → y < dh → ∃ c, warpPixelFl mode w h src.data src.stride (posAfter (rowStart y (t 3) (t 6)) (t 0) x)
        (posAfter (rowStart y (t 4) (t 7)) (t 1) x) (noise x y) = .ok c := by
    intro x y hx hy
    have hx' : (x : Rat) ≤ 1048576 := by exact_mod_cast (by omega : x ≤ 1048576)
    have px := c158_total (n := x) (c := t 0) (by omega : y ≤ 16777216) (by omega) (le_refl (2097152 : Rat)) (ha y hy).1
      (fun k hk => (hB y hy k (by omega)).1)
    have py := c158_total (n := x) (c := t 1) (by omega : y ≤ 16777216) (by omega) (le_refl (2097152 : Rat)) (ha y hy).2
      (fun k hk => (hB y hy k (by omega)).2)
    have bx := abs_le.mp (hB y hy x hx).1
    have by' := abs_le.mp (hB y hy x hx).2
    have px' := abs_le.mp px
    have py' := abs_le.mp py
    refine c158_safe hm hs hw hh ?_ ?_ (hn x y)
    · rw [abs_le]
      constructor <;> linarith [px'.1, px'.2, bx.1, bx.2]
    · rw [abs_le]
      constructor <;> linarith [py'.1, py'.2, by'.1, by'.2]
  obtain ⟨S, hS⟩ : ∃ S : Nat → Nat → Byte, ∀ x y, x < dw → y < dh →
      warpPixelFl mode w h src.data src.stride (posAfter (rowStart y (t 3) (t 6)) (t 0) x)
        (posAfter (rowStart y (t 4) (t 7)) (t 1) x) (noise x y) = .ok (S x y) := by
    refine ⟨fun x y => if hc : x < dw ∧ y < dh then (pix x y hc.1 hc.2).choose else 0, fun x y hx hy => ?_⟩
    simp only [dif_pos (And.intro hx hy)]
    exact (pix x y hx hy).choose_spec
  obtain ⟨d, e1, hF⟩ := fill_spec (st := dst) (H := dh) (w := dw) (f := S) (d0 := dest)
    (body := fun y x d => do
      let b ← warpPixelFl mode w h src.data src.stride (posAfter (rowStart y (t 3) (t 6)) (t 0) x)
        (posAfter (rowStart y (t 4) (t 7)) (t 1) x) (noise x y)
      writeAt d (y * dst + x) b) hst hd (by
      intro y x d' hy hx hd'
      rw [hS x y hx hy]
      simp only [Res.ok_bind]
      exact writeAt_ok _ (by rw [hd']; exact pixIdx_lt (by omega) hy))
  refine ⟨d, ?_, by rw [hF.1, hd]⟩
  rw [c158_loops dw dh dest dst src.stride src.data t noise hsw hsh]
  exact e1

end Nx
