import Verif.Model.Warp
import Verif.Spec.Warp
import Verif.Props.ImageFilter

/-! # C78: warping and rotating images, C79: scaling images -/

namespace Nx

/-! ## Lemmas -/

theorem bilinear_range {u v a b c d lo hi : Rat} (hu0 : 0 ≤ u) (hu1 : u ≤ 1) (hv0 : 0 ≤ v) (hv1 : v ≤ 1)
    (ha : lo ≤ a ∧ a ≤ hi) (hb : lo ≤ b ∧ b ≤ hi) (hc : lo ≤ c ∧ c ≤ hi) (hd : lo ≤ d ∧ d ≤ hi) :
    lo ≤ bilinear u v a b c d ∧ bilinear u v a b c d ≤ hi := by
  have line : ∀ t p q : Rat, 0 ≤ t → t ≤ 1 → lo ≤ p ∧ p ≤ hi → lo ≤ q ∧ q ≤ hi → lo ≤ (1 - t) * p + t * q ∧ (1 - t) * p + t * q ≤ hi := by
    intro t p q h0 h1 hp hq
    constructor
    · nlinarith [mul_nonneg (sub_nonneg.mpr h1) (sub_nonneg.mpr hp.1), mul_nonneg h0 (sub_nonneg.mpr hq.1)]
    · nlinarith [mul_nonneg (sub_nonneg.mpr h1) (sub_nonneg.mpr hp.2), mul_nonneg h0 (sub_nonneg.mpr hq.2)]
  exact line v _ _ hv0 hv1 (line u a b hu0 hu1 ha hb) (line u c d hu0 hu1 hc hd)

theorem bilinearAt_eq (f : Int → Int → Rat) (x y : Rat) :
    bilinearAt f x y = bilinear (x - ⌊x⌋) (y - ⌊y⌋) (f ⌊x⌋ ⌊y⌋) (f (⌊x⌋ + 1) ⌊y⌋) (f ⌊x⌋ (⌊y⌋ + 1)) (f (⌊x⌋ + 1) (⌊y⌋ + 1)) := rfl

/-- The interpolation lies between the pixels. -/
theorem bilinearAt_range {f : Int → Int → Rat} {lo hi : Rat} (h : ∀ i j, lo ≤ f i j ∧ f i j ≤ hi) (x y : Rat) :
    lo ≤ bilinearAt f x y ∧ bilinearAt f x y ≤ hi :=
  bilinear_range (Int.fract_nonneg x) (Int.fract_lt_one x).le (Int.fract_nonneg y) (Int.fract_lt_one y).le (h _ _) (h _ _) (h _ _) (h _ _)

/-- C78. The interpolation agrees with the image at pixels. -/
theorem c78_at_pixel (f : Int → Int → Rat) (i j : Int) : bilinearAt f i j = f i j := by
  unfold bilinearAt
  simp

theorem ratTrunc_nonneg {q : Rat} (h : 0 ≤ q) : ratTrunc q = ⌊q⌋ := by
  unfold ratTrunc
  rw [if_neg (not_lt.mpr h)]
  rfl

theorem ratTrunc_neg {q : Rat} (h : q < 0) : ratTrunc q = -⌊-q⌋ := by
  unfold ratTrunc
  rw [if_pos h]
  rfl

/-- Coordinates that can be converted to `int` and have a successor. -/
def IntRange (q : Rat) : Prop := -2147483648 ≤ q ∧ q < 2147483647

theorem truncInt_fits {q : Rat} (h : IntRange q) : truncInt q = .ok (ratTrunc q) ∧ ratTrunc q ≠ 2147483647 := by
  have hb : -2147483648 ≤ ratTrunc q ∧ ratTrunc q < 2147483647 := by
    by_cases h0 : q < 0
    · rw [ratTrunc_neg h0]
      have h1 : ⌊-q⌋ ≤ 2147483648 := by
        have := Int.floor_le_floor (show -q ≤ 2147483648 by linarith [h.1])
        have e : ⌊(2147483648 : Rat)⌋ = 2147483648 := by norm_num
        rwa [e] at this
      have h2 : 0 ≤ ⌊-q⌋ := Int.floor_nonneg.mpr (by linarith)
      omega
    · rw [ratTrunc_nonneg (not_lt.mp h0)]
      have h1 : ⌊q⌋ < 2147483647 := by
        rw [Int.floor_lt]
        exact_mod_cast h.2
      have h2 : 0 ≤ ⌊q⌋ := Int.floor_nonneg.mpr (not_lt.mp h0)
      omega
  refine ⟨?_, by omega⟩
  unfold truncInt
  rw [if_pos (by unfold InI32; omega)]

theorem fits_of {q : Rat} {n : Nat} (h0 : 0 ≤ q) (h1 : q < (n : Rat) - 1) (hn : n ≤ 2147483647) : IntRange q := by
  have : (n : Rat) ≤ 2147483647 := by exact_mod_cast hn
  exact ⟨by linarith, by linarith⟩

theorem floor_inside {q : Rat} {n : Nat} (h0 : 0 ≤ q) (h1 : q < (n : Rat) - 1) : 0 ≤ ⌊q⌋ ∧ ⌊q⌋ + 1 < n := by
  refine ⟨Int.floor_nonneg.mpr h0, ?_⟩
  have : ⌊q⌋ < (n : Int) - 1 := by
    rw [Int.floor_lt]
    push_cast
    exact h1
  omega

section
variable {α : Type} {src : GImage α} {w h : Nat} {f : Nat → Nat → α}

theorem readFour_spec (hs : src.Shows w h f) {a0 a1 b0 b1 : Int} (ha0 : 0 ≤ a0 ∧ a0 < w) (ha1 : 0 ≤ a1 ∧ a1 < w)
    (hb0 : 0 ≤ b0 ∧ b0 < h) (hb1 : 0 ≤ b1 ∧ b1 < h) :
    readFour src.data src.stride (a0, a1) (b0, b1) =
      .ok (f a0.toNat b0.toNat, f a1.toNat b0.toNat, f a0.toNat b1.toNat, f a1.toNat b1.toNat) := by
  have hr : ∀ a b : Int, 0 ≤ a ∧ a < w → 0 ≤ b ∧ b < h → readI src.data (b * src.stride + a) = .ok (f a.toNat b.toNat) := by
    intro a b ha hb
    have e : b * (src.stride : Int) + a = ((b.toNat * src.stride + a.toNat : Nat) : Int) := by
      push_cast
      rw [Int.toNat_of_nonneg ha.1, Int.toNat_of_nonneg hb.1]
    rw [readI_nat e]
    exact hs.read (by omega) (by omega)
  unfold readFour
  simp only [hr a0 b0 ha0 hb0, hr a1 b0 ha1 hb0, hr a0 b1 ha0 hb1, hr a1 b1 ha1 hb1, Res.ok_bind]
  rfl
end

theorem clampByte_floor {v : Rat} (h0 : 0 ≤ v) (h1 : v ≤ 255) :
    ∃ I, truncInt v = .ok I ∧ byteVal (clampByte I) ≤ v ∧ v < byteVal (clampByte I) + 1 := by
  have hge : 0 ≤ ⌊v⌋ := Int.floor_nonneg.mpr h0
  have hle : ⌊v⌋ ≤ 255 := by
    have := Int.floor_le_floor h1
    have e : ⌊(255 : Rat)⌋ = 255 := by norm_num
    rwa [e] at this
  refine ⟨⌊v⌋, ?_, ?_⟩
  · unfold truncInt
    rw [ratTrunc_nonneg h0, if_pos (by unfold InI32; omega)]
  · have e : byteVal (clampByte ⌊v⌋) = ((⌊v⌋ : Int) : Rat) := by
      unfold byteVal clampByte
      rw [if_neg (by omega), if_neg (by omega), UInt8.toNat_ofNat', ← Int.cast_natCast]
      congr 1
      omega
    rw [e]
    exact ⟨Int.floor_le v, Int.lt_floor_add_one v⟩

/-! ## One pixel -/

section
variable {mode : WarpMode} {src : GImage Byte} {w h : Nat} {f : Nat → Nat → Byte} {xp yp s : Rat}

/-- The image continued to all integers by positions `px` and `py`. -/
def continued (f : Nat → Nat → Byte) (px py : Int → Nat) (i j : Int) : Rat := byteVal (f (px i) (py j))

theorem continued_range (px py : Int → Nat) (i j : Int) : 0 ≤ continued f px py i j ∧ continued f px py i j ≤ 255 :=
  ⟨byteVal_nonneg _, byteVal_le _⟩

/-- The result of one pixel from the positions that are read. -/
theorem warpPixel_spec (hs : src.Shows w h f) (hx : IntRange xp) (hy : IntRange yp) {a0 a1 b0 b1 : Int}
    (hix : warpIndex mode w (ratTrunc xp) = .ok (some (a0, a1))) (hiy : warpIndex mode h (ratTrunc yp) = .ok (some (b0, b1)))
    (ha0 : 0 ≤ a0 ∧ a0 < w) (ha1 : 0 ≤ a1 ∧ a1 < w) (hb0 : 0 ≤ b0 ∧ b0 < h) (hb1 : 0 ≤ b1 ∧ b1 < h) :
    warpPixel mode w h src.data src.stride xp yp s = (do
      let I ← truncInt (bilinear (xp - ratTrunc xp) (yp - ratTrunc yp) (byteVal (f a0.toNat b0.toNat)) (byteVal (f a1.toNat b0.toNat))
        (byteVal (f a0.toNat b1.toNat)) (byteVal (f a1.toNat b1.toNat)))
      pure (clampByte I)) := by
  unfold warpPixel
  rw [(truncInt_fits hx).1, (truncInt_fits hy).1]
  simp only [Res.ok_bind]
  rw [hix, hiy]
  simp only [Res.ok_bind]
  rw [readFour_spec hs ha0 ha1 hb0 hb1]
  rfl

theorem warpIndex_inside (mode : WarpMode) {n : Nat} {i : Int} (h0 : 0 ≤ i) (h1 : i + 1 < n) (hn : i ≠ 2147483647) :
    warpIndex mode n i = .ok (some (i, i + 1)) := by
  unfold warpIndex
  simp only
  rw [if_neg hn]
  cases mode <;> simp only
  · rw [if_neg (by omega)]
  · rw [if_neg (by omega)]
  · rw [if_neg (by omega)]
  · rw [if_neg (by omega), if_neg (by omega)]
  · rw [if_neg (by omega), if_neg (by omega), if_neg (by omega)]

/-- C78. Inside of the image the result is the interpolation of the four pixels around the position, rounded down, for all kinds of
background. -/
theorem c78_inside (hs : src.Shows w h f) (hw : w ≤ 2147483647) (hh : h ≤ 2147483647) (hx0 : 0 ≤ xp) (hx1 : xp < (w : Rat) - 1)
    (hy0 : 0 ≤ yp) (hy1 : yp < (h : Rat) - 1) :
    ∃ c, warpPixel mode w h src.data src.stride xp yp s = .ok c ∧
      byteVal c ≤ bilinearAt (continued f Int.toNat Int.toNat) xp yp ∧
      bilinearAt (continued f Int.toNat Int.toNat) xp yp < byteVal c + 1 := by
  have fx := fits_of hx0 hx1 hw
  have fy := fits_of hy0 hy1 hh
  obtain ⟨x1, x2⟩ := floor_inside hx0 hx1
  obtain ⟨y1, y2⟩ := floor_inside hy0 hy1
  have ex := ratTrunc_nonneg hx0
  have ey := ratTrunc_nonneg hy0
  have hr := bilinearAt_range (continued_range (f := f) Int.toNat Int.toNat) xp yp
  obtain ⟨I, eI, hI⟩ := clampByte_floor hr.1 hr.2
  refine ⟨clampByte I, ?_, hI⟩
  rw [warpPixel_spec (s := s) hs fx fy (warpIndex_inside mode (by rw [ex]; exact x1) (by rw [ex]; exact x2) (truncInt_fits fx).2)
    (warpIndex_inside mode (by rw [ey]; exact y1) (by rw [ey]; exact y2) (truncInt_fits fy).2) (by omega) (by omega) (by omega)
    (by omega), ex, ey]
  rw [bilinearAt_eq] at eI
  unfold continued at eI
  rw [eI]
  rfl

/-- C78. An integer position that is not in the last row or column gives the pixel itself. -/
theorem c78_pixel (hs : src.Shows w h f) (hw : w ≤ 2147483647) (hh : h ≤ 2147483647) {i j : Nat} (hi : i + 1 < w) (hj : j + 1 < h) :
    warpPixel mode w h src.data src.stride i j s = .ok (f i j) := by
  have h1 : (i : Rat) < (w : Rat) - 1 := by
    have : ((i + 1 : Nat) : Rat) < (w : Rat) := by exact_mod_cast hi
    push_cast at this
    linarith
  have h2 : (j : Rat) < (h : Rat) - 1 := by
    have : ((j + 1 : Nat) : Rat) < (h : Rat) := by exact_mod_cast hj
    push_cast at this
    linarith
  obtain ⟨c, e, c1, c2⟩ := c78_inside (mode := mode) (s := s) hs hw hh (Nat.cast_nonneg i) h1 (Nat.cast_nonneg j) h2
  have e2 : bilinearAt (continued f Int.toNat Int.toNat) (i : Rat) (j : Rat) = byteVal (f i j) := by
    have := c78_at_pixel (continued f Int.toNat Int.toNat) i j
    simpa [continued] using this
  rw [e2] at c1 c2
  rw [e]
  congr 1
  apply UInt8.toNat_inj.mp
  unfold byteVal at c1 c2
  have l1 : c.toNat ≤ (f i j).toNat := by exact_mod_cast c1
  have l2 : (f i j).toNat < c.toNat + 1 := by exact_mod_cast c2
  omega

/-- Outside of the image: at least one pixel beyond the first, or at the last. -/
def Outside (n : Nat) (q : Rat) : Prop := q ≤ -1 ∨ (n : Rat) - 1 ≤ q

theorem trunc_outside {n : Nat} {q : Rat} (hn : 0 < n) (h : Outside n q) : ratTrunc q < 0 ∨ ratTrunc q ≥ (n : Int) - 1 := by
  rcases h with h | h
  · left
    rw [ratTrunc_neg (by linarith)]
    have : 1 ≤ ⌊-q⌋ := by
      rw [Int.le_floor]
      push_cast
      linarith
    omega
  · right
    have h0 : (1 : Rat) ≤ n := by exact_mod_cast hn
    rw [ratTrunc_nonneg (by linarith), ge_iff_le, Int.le_floor]
    push_cast
    exact h

/-- Outside of the image the background is taken. -/
theorem warpPixel_background (hm : mode = .black ∨ mode = .white ∨ mode = .noise) (hw : 0 < w) (hh : 0 < h) (hx : IntRange xp) (hy :
  IntRange yp)
    (ho : Outside w xp ∨ Outside h yp) (src : List Byte) (stride : Nat) :
    warpPixel mode w h src stride xp yp s = warpBackground mode s := by
  have hidx : ∀ (n : Nat) (i : Int), i ≠ 2147483647 → warpIndex mode n i = if i < 0 ∨ i ≥ (n : Int) - 1 then .ok none else .ok (some (i,
    i + 1)) := by
    intro n i hi
    unfold warpIndex
    simp only
    rw [if_neg hi]
    rcases hm with e | e | e <;> rw [e]
  unfold warpPixel
  rw [(truncInt_fits hx).1, (truncInt_fits hy).1]
  simp only [Res.ok_bind]
  rw [hidx w _ (truncInt_fits hx).2, hidx h _ (truncInt_fits hy).2]
  rcases ho with ho | ho
  · rw [if_pos (trunc_outside hw ho)]
    simp only [Res.ok_bind]
    split <;> rfl
  · rw [if_pos (trunc_outside hh ho)]
    split <;> rfl

/-- C78. Outside of the image the background is taken: black, white, or the sample of the noise. -/
theorem c78_background (hw : 0 < w) (hh : 0 < h) (hx : IntRange xp) (hy : IntRange yp)
    (ho : Outside w xp ∨ Outside h yp) (src : List Byte) (stride : Nat) :
    warpPixel .black w h src stride xp yp s = .ok 0 ∧ warpPixel .white w h src stride xp yp s = .ok 255 ∧
      (0 ≤ s → s ≤ 1 → ∃ c, warpPixel .noise w h src stride xp yp s = .ok c ∧ byteVal c ≤ 255 * s ∧ 255 * s < byteVal c + 1) := by
  refine ⟨warpPixel_background (Or.inl rfl) hw hh hx hy ho src stride,
    warpPixel_background (Or.inr (Or.inl rfl)) hw hh hx hy ho src stride, ?_⟩
  intro h0 h1
  rw [warpPixel_background (Or.inr (Or.inr rfl)) hw hh hx hy ho src stride]
  exact storeByte_spec (by linarith) (by linarith)

example : IntRange (-3) ∧ Outside 2 (-3) := by
  unfold IntRange Outside
  norm_num

/-- C78 fails at the first column and row: half a pixel to the left the result is neither background nor between the pixels. -/
theorem c78_edge : warpPixel .black 2 2 [100, 0, 100, 0] 2 (-1 / 2) 0 0 = .ok 150 := by decide +kernel

theorem trunc_repeat {n : Nat} {q : Rat} (hn : 0 < n) (hq : q ≤ -1 ∨ 0 ≤ q) (hf : ratTrunc q ≠ 2147483647) :
    ∃ a0 a1 : Int, warpIndex .repeat n (ratTrunc q) = .ok (some (a0, a1)) ∧ 0 ≤ a0 ∧ a0 < n ∧ 0 ≤ a1 ∧ a1 < n ∧
      a0.toNat = nearest n ⌊q⌋ ∧ a1.toNat = nearest n (⌊q⌋ + 1) ∧ (ratTrunc q = ⌊q⌋ ∨ a0 = a1) := by
  unfold warpIndex
  simp only
  rw [if_neg hf]
  rcases hq with hq | hq
  · have e := ratTrunc_neg (q := q) (by linarith)
    have h1 : 1 ≤ ⌊-q⌋ := by
      rw [Int.le_floor]
      push_cast
      linarith
    have h2 : ⌊q⌋ ≤ -1 := by
      have := Int.floor_le_floor hq
      have e : ⌊(-1 : Rat)⌋ = -1 := by norm_num
      rwa [e] at this
    rw [if_pos (by omega)]
    refine ⟨0, 0, rfl, by omega, by omega, by omega, by omega, ?_, ?_, Or.inr rfl⟩
    · unfold nearest
      rw [if_pos (by omega)]
      rfl
    · unfold nearest
      by_cases hz : ⌊q⌋ + 1 < 0
      · rw [if_pos hz]
        rfl
      · rw [if_neg hz, if_pos (by omega)]
        omega
  · have e := ratTrunc_nonneg hq
    have h0 : 0 ≤ ⌊q⌋ := Int.floor_nonneg.mpr hq
    rw [e, if_neg (by omega)]
    by_cases hl : ⌊q⌋ ≥ (n : Int) - 1
    · rw [if_pos hl]
      refine ⟨_, _, rfl, by omega, by omega, by omega, by omega, ?_, ?_, Or.inl rfl⟩
      · unfold nearest
        rw [if_neg (by omega)]
        split <;> omega
      · unfold nearest
        rw [if_neg (by omega), if_neg (by omega)]
        omega
    · rw [if_neg hl]
      refine ⟨_, _, rfl, by omega, by omega, by omega, by omega, ?_, ?_, Or.inl rfl⟩
      · unfold nearest
        rw [if_neg (by omega), if_pos (by omega)]
      · unfold nearest
        rw [if_neg (by omega), if_pos (by omega)]

theorem bilinear_same_x (u u' v a c : Rat) : bilinear u v a a c c = bilinear u' v a a c c := by
  unfold bilinear
  ring

theorem bilinear_same_y (u v v' a b : Rat) : bilinear u v a b a b = bilinear u v' a b a b := by
  unfold bilinear
  ring

/-- C78. With repetition the result is the interpolation in the image continued by its outermost pixels, except for positions less
than one pixel before the first column or row. -/
theorem c78_repeat_partial (hs : src.Shows w h f) (hw : 0 < w) (hh : 0 < h) (hx : IntRange xp) (hy : IntRange yp) (hx' : xp ≤ -1 ∨ 0 ≤ xp)
    (hy' : yp ≤ -1 ∨ 0 ≤ yp) :
    ∃ c, warpPixel .repeat w h src.data src.stride xp yp s = .ok c ∧
      byteVal c ≤ bilinearAt (continued f (nearest w) (nearest h)) xp yp ∧
      bilinearAt (continued f (nearest w) (nearest h)) xp yp < byteVal c + 1 := by
  obtain ⟨a0, a1, ea, a2, a3, a4, a5, a6, a7, a8⟩ := trunc_repeat hw hx' (truncInt_fits hx).2
  obtain ⟨b0, b1, eb, b2, b3, b4, b5, b6, b7, b8⟩ := trunc_repeat hh hy' (truncInt_fits hy).2
  have hr := bilinearAt_range (continued_range (f := f) (nearest w) (nearest h)) xp yp
  obtain ⟨I, eI, hI⟩ := clampByte_floor hr.1 hr.2
  refine ⟨clampByte I, ?_, hI⟩
  rw [warpPixel_spec (s := s) hs hx hy ea eb ⟨a2, a3⟩ ⟨a4, a5⟩ ⟨b2, b3⟩ ⟨b4, b5⟩]
  rw [bilinearAt_eq] at eI
  unfold continued at eI
  rw [← a6, ← a7, ← b6, ← b7] at eI
  have : bilinear (xp - ratTrunc xp) (yp - ratTrunc yp) (byteVal (f a0.toNat b0.toNat)) (byteVal (f a1.toNat b0.toNat))
        (byteVal (f a0.toNat b1.toNat)) (byteVal (f a1.toNat b1.toNat)) =
      bilinear (xp - ⌊xp⌋) (yp - ⌊yp⌋) (byteVal (f a0.toNat b0.toNat)) (byteVal (f a1.toNat b0.toNat))
        (byteVal (f a0.toNat b1.toNat)) (byteVal (f a1.toNat b1.toNat)) := by
    have step1 : bilinear (xp - ratTrunc xp) (yp - ratTrunc yp) (byteVal (f a0.toNat b0.toNat)) (byteVal (f a1.toNat b0.toNat))
        (byteVal (f a0.toNat b1.toNat)) (byteVal (f a1.toNat b1.toNat)) =
      bilinear (xp - ⌊xp⌋) (yp - ratTrunc yp) (byteVal (f a0.toNat b0.toNat)) (byteVal (f a1.toNat b0.toNat))
        (byteVal (f a0.toNat b1.toNat)) (byteVal (f a1.toNat b1.toNat)) := by
      rcases a8 with e | e
      · rw [e]
      · rw [e]
        exact bilinear_same_x _ _ _ _ _
    rw [step1]
    rcases b8 with e | e
    · rw [e]
    · rw [e]
      exact bilinear_same_y _ _ _ _ _
  rw [this, eI]
  rfl

/-- C78 fails for repetition at half a pixel before the first column: the first pixel is 100. -/
theorem c78_repeat_edge : warpPixel .repeat 2 2 [100, 0, 100, 0] 2 (-1 / 2) 0 0 = .ok 150 ∧
    bilinearAt (fun i j => ([100, 0, 100, 0].getD (nearest 2 j * 2 + nearest 2 i) 0 : Rat)) (-1 / 2) 0 = 100 := by
  constructor
  · decide +kernel
  · unfold bilinearAt
    have e1 : ⌊(-1 / 2 : Rat)⌋ = -1 := by norm_num
    have e2 : Int.fract (-1 / 2 : Rat) = 1 / 2 := by unfold Int.fract; rw [e1]; norm_num
    rw [e1, e2]
    norm_num [nearest]

theorem trunc_mirror {n : Nat} {i : Int} (h0 : 0 ≤ i) (h1 : i < 2 * (n : Int) - 3) (hf : i ≠ 2147483647) :
    ∃ a0 a1 : Int, warpIndex .mirror n i = .ok (some (a0, a1)) ∧ 0 ≤ a0 ∧ a0 < n ∧ 0 ≤ a1 ∧ a1 < n ∧
      a0.toNat = fold n i ∧ a1.toNat = fold n (i + 1) := by
  have hfold : ∀ j : Int, 0 ≤ j → j < 2 * (n : Int) - 2 → fold n j = if j < n then j.toNat else ((n : Int) * 2 - 2 - j).toNat := by
    intro j hj0 hj1
    unfold fold
    have : j % (2 * ((n : Int) - 1)) = j := Int.emod_eq_of_lt hj0 (by omega)
    simp only [this]
    split
    · rfl
    · congr 1
      ring
  have hdiv : ∀ j : Int, 0 ≤ j → j < 2 * (n : Int) - 2 → mirrorHigh ((n : Int) * 2 - 2) j = .ok ((n : Int) * 2 - 2 - j) := by
    intro j hj0 hj1
    unfold mirrorHigh
    rw [if_neg (by omega), Int.tdiv_eq_zero_of_lt hj0 (by omega)]
    simp
  rw [hfold i h0 (by omega), hfold (i + 1) (by omega) (by omega)]
  unfold warpIndex
  simp only
  rw [if_neg hf, if_neg (by omega), if_neg (by omega)]
  by_cases hl : i ≥ (n : Int) - 1
  · rw [if_pos hl]
    by_cases hg : i ≥ (n : Int)
    · rw [if_pos hg, hdiv i h0 (by omega), if_neg (by omega), if_neg (by omega)]
      simp only [Res.ok_bind]
      rw [if_pos (by omega), hdiv (i + 1) (by omega) (by omega)]
      exact ⟨_, _, rfl, by omega, by omega, by omega, by omega, rfl, rfl⟩
    · rw [if_neg hg, if_pos (by omega), if_neg (by omega)]
      simp only [Res.ok_bind]
      rw [if_pos (by omega), hdiv (i + 1) (by omega) (by omega)]
      exact ⟨_, _, rfl, by omega, by omega, by omega, by omega, rfl, rfl⟩
  · rw [if_neg hl, if_pos (by omega), if_pos (by omega)]
    exact ⟨_, _, rfl, by omega, by omega, by omega, by omega, rfl, rfl⟩

/-- C78. With reflection the result is right for positions that are not negative and before the end of the first reflection. -/
theorem c78_mirror_partial (hs : src.Shows w h f) (hw : w ≤ 1073741823) (hh : h ≤ 1073741823) (hx0 : 0 ≤ xp) (hx1 : xp < 2 * (w : Rat) - 3)
    (hy0 : 0 ≤ yp) (hy1 : yp < 2 * (h : Rat) - 3) :
    ∃ c, warpPixel .mirror w h src.data src.stride xp yp s = .ok c ∧
      byteVal c ≤ bilinearAt (continued f (fold w) (fold h)) xp yp ∧ bilinearAt (continued f (fold w) (fold h)) xp yp < byteVal c + 1 := by
  have fits : ∀ (q : Rat) (n : Nat), 0 ≤ q → q < 2 * (n : Rat) - 3 → n ≤ 1073741823 → IntRange q ∧ 0 ≤ ⌊q⌋ ∧ ⌊q⌋ < 2 * (n : Int) - 3 := by
    intro q n h0 h1 hn
    have : (n : Rat) ≤ 1073741823 := by exact_mod_cast hn
    refine ⟨⟨by linarith, by linarith⟩, Int.floor_nonneg.mpr h0, ?_⟩
    rw [Int.floor_lt]
    push_cast
    exact h1
  obtain ⟨fx, x1, x2⟩ := fits xp w hx0 hx1 hw
  obtain ⟨fy, y1, y2⟩ := fits yp h hy0 hy1 hh
  have ex := ratTrunc_nonneg hx0
  have ey := ratTrunc_nonneg hy0
  obtain ⟨a0, a1, ea, a2, a3, a4, a5, a6, a7⟩ := trunc_mirror x1 x2 (by rw [← ex]; exact (truncInt_fits fx).2)
  obtain ⟨b0, b1, eb, b2, b3, b4, b5, b6, b7⟩ := trunc_mirror y1 y2 (by rw [← ey]; exact (truncInt_fits fy).2)
  have hr := bilinearAt_range (continued_range (f := f) (fold w) (fold h)) xp yp
  obtain ⟨I, eI, hI⟩ := clampByte_floor hr.1 hr.2
  refine ⟨clampByte I, ?_, hI⟩
  rw [warpPixel_spec (s := s) hs fx fy (by rw [ex]; exact ea) (by rw [ey]; exact eb) ⟨a2, a3⟩ ⟨a4, a5⟩ ⟨b2, b3⟩ ⟨b4, b5⟩, ex, ey]
  rw [bilinearAt_eq] at eI
  unfold continued at eI
  rw [← a6, ← a7, ← b6, ← b7] at eI
  rw [eI]
  rfl

/-- C78 fails for reflection of negative positions: the pixels are 10, 50, 250, the reflection of -3/2 is 3/2, where the value is
150. -/
theorem c78_mirror_negative : warpPixel .mirror 3 2 [10, 50, 250, 10, 50, 250] 3 (-3 / 2) 0 0 = .ok 70 ∧
    warpPixel .mirror 3 2 [10, 50, 250, 10, 50, 250] 3 (3 / 2) 0 0 = .ok 150 ∧
    fold 3 (-2) = fold 3 2 ∧ fold 3 (-1) = fold 3 1 := by decide +kernel

theorem mirrorHigh_far {n : Nat} {i : Int} (hn : 2 ≤ n) (hi : (n : Int) * 2 - 2 ≤ i) :
    ∃ a, mirrorHigh ((n : Int) * 2 - 2) i = .ok a ∧ a < 0 := by
  refine ⟨_, by unfold mirrorHigh; rw [if_neg (by omega)], ?_⟩
  have hw2 : 0 < (n : Int) * 2 - 2 := by omega
  have h1 : 1 ≤ i.tdiv ((n : Int) * 2 - 2) := by
    rw [Int.tdiv_eq_ediv_of_nonneg (by omega)]
    exact (Int.le_ediv_iff_mul_le hw2).mpr (by omega)
  have h2 : (n : Int) * 2 - 2 ≤ ((n : Int) * 2 - 2) * i.tdiv ((n : Int) * 2 - 2) := by
    have := Int.mul_le_mul_of_nonneg_left h1 hw2.le
    omega
  omega

theorem readI_cases {α : Type} (l : List α) (i : Int) : readI l i = .ub ∨ ∃ v, readI l i = .ok v := by
  unfold readI readAt
  split
  · cases l[i.toNat]? with
    | none => exact Or.inl rfl
    | some v => exact Or.inr ⟨v, rfl⟩
  · exact Or.inl rfl

theorem readFour_ub2 {α : Type} {l : List α} {st : Nat} {ix iy : Int × Int} (h : readI l (iy.1 * st + ix.2) = .ub) :
    readFour l st ix iy = .ub := by
  unfold readFour
  rw [h]
  rcases readI_cases l (iy.1 * st + ix.1) with e | ⟨v, e⟩ <;> rw [e] <;> rfl

/-- C78 fails for reflection behind the first reflection: in the first row memory before the image is read. -/
theorem c78_mirror_far (hw : 2 ≤ w) (hh : 2 ≤ h) (hx : IntRange xp) (hx1 : 2 * (w : Rat) - 3 ≤ xp)
    (hy0 : 0 ≤ yp) (hy1 : yp < 1) (src : List Byte) (stride : Nat) : warpPixel .mirror w h src stride xp yp s = .ub := by
  have hw' : (2 : Rat) ≤ w := by exact_mod_cast hw
  have hx0 : 0 ≤ xp := by linarith
  have fy : IntRange yp := ⟨by linarith, by linarith⟩
  have ex := ratTrunc_nonneg hx0
  have ey : ratTrunc yp = 0 := by
    rw [ratTrunc_nonneg hy0, Int.floor_eq_zero_iff]
    exact ⟨hy0, hy1⟩
  have h1 : 2 * (w : Int) - 3 ≤ ⌊xp⌋ := by
    rw [Int.le_floor]
    push_cast
    exact hx1
  have hne := (truncInt_fits hx).2
  obtain ⟨b, eb, hb⟩ := mirrorHigh_far (n := w) (i := ⌊xp⌋ + 1) hw (by omega)
  have hidx : ∃ a, warpIndex .mirror w (ratTrunc xp) = .ok (some (a, b)) := by
    rw [ex] at hne ⊢
    unfold warpIndex
    simp only
    rw [if_neg hne, if_neg (by omega), if_neg (by omega), if_pos (by omega)]
    by_cases hg : ⌊xp⌋ ≥ (w : Int)
    · rw [if_pos hg]
      have : ∃ a, mirrorHigh ((w : Int) * 2 - 2) ⌊xp⌋ = .ok a := ⟨_, by unfold mirrorHigh; rw [if_neg (by omega)]⟩
      obtain ⟨a, ea⟩ := this
      rw [ea]
      simp only [Res.ok_bind]
      rw [if_pos (by omega), eb]
      exact ⟨a, rfl⟩
    · rw [if_neg hg]
      simp only [Res.ok_bind]
      rw [if_pos (by omega), eb]
      exact ⟨_, rfl⟩
  obtain ⟨a, ea⟩ := hidx
  unfold warpPixel
  rw [(truncInt_fits hx).1, (truncInt_fits fy).1]
  simp only [Res.ok_bind]
  rw [ea, ey, warpIndex_inside .mirror (by omega) (by omega) (by omega)]
  simp only [Res.ok_bind]
  rw [readFour_ub2 (by simp only; exact readI_neg (by omega))]
  rfl

/-- C78 fails for reflection of images that are one pixel wide: division by zero. -/
theorem c78_mirror_thin (hx : IntRange xp) (hx0 : 0 ≤ xp) (hy : IntRange yp) (src : List Byte) (stride : Nat) :
    warpPixel .mirror 1 h src stride xp yp s = .ub := by
  have ex := ratTrunc_nonneg hx0
  have h0 : 0 ≤ ⌊xp⌋ := Int.floor_nonneg.mpr hx0
  have hne := (truncInt_fits hx).2
  rw [ex] at hne
  unfold warpPixel
  rw [(truncInt_fits hx).1, (truncInt_fits hy).1, ex]
  simp only [Res.ok_bind]
  have : warpIndex .mirror 1 ⌊xp⌋ = .ub := by
    unfold warpIndex
    simp only
    rw [if_neg hne, if_neg (by omega), if_neg (by omega), if_pos (by omega)]
    by_cases hg : ⌊xp⌋ ≥ ((1 : Nat) : Int)
    · rw [if_pos hg]
      rfl
    · rw [if_neg hg]
      simp only [Res.ok_bind]
      rw [if_pos (by omega)]
      rfl
  rw [this]
  rfl

/-- C78. Without reflection no position is read outside of the image, and every number can be converted. -/
theorem c78_safe (hm : mode ≠ .mirror) (hs : src.Shows w h f) (hw : 0 < w) (hh : 0 < h) (hx : IntRange xp) (hy : IntRange yp)
    (hn : 0 ≤ s ∧ s ≤ 1) : ∃ c, warpPixel mode w h src.data src.stride xp yp s = .ok c := by
  have hidx : ∀ (n : Nat) (i : Int), 0 < n → i ≠ 2147483647 → warpIndex mode n i = .ok none ∧ mode ≠ .repeat ∨
      ∃ a b : Int, warpIndex mode n i = .ok (some (a, b)) ∧ (0 ≤ a ∧ a < n) ∧ (0 ≤ b ∧ b < n) := by
    intro n i hn hi
    unfold warpIndex
    simp only
    rw [if_neg hi]
    cases hmode : mode <;> simp only
    · by_cases hc : i < 0 ∨ i ≥ (n : Int) - 1
      · rw [if_pos hc]; exact Or.inl ⟨rfl, by simp⟩
      · rw [if_neg hc]; exact Or.inr ⟨_, _, rfl, by omega, by omega⟩
    · by_cases hc : i < 0 ∨ i ≥ (n : Int) - 1
      · rw [if_pos hc]; exact Or.inl ⟨rfl, by simp⟩
      · rw [if_neg hc]; exact Or.inr ⟨_, _, rfl, by omega, by omega⟩
    · by_cases hc : i < 0 ∨ i ≥ (n : Int) - 1
      · rw [if_pos hc]; exact Or.inl ⟨rfl, by simp⟩
      · rw [if_neg hc]; exact Or.inr ⟨_, _, rfl, by omega, by omega⟩
    · right
      by_cases h0 : i < 0
      · rw [if_pos h0]; exact ⟨_, _, rfl, by omega, by omega⟩
      · rw [if_neg h0]
        by_cases h1 : i ≥ (n : Int) - 1
        · rw [if_pos h1]; exact ⟨_, _, rfl, by omega, by omega⟩
        · rw [if_neg h1]; exact ⟨_, _, rfl, by omega, by omega⟩
    · exact absurd hmode hm
  have hbg : ∃ c, warpBackground mode s = .ok c := by
    unfold warpBackground
    cases mode <;> simp only
    · exact ⟨_, rfl⟩
    · exact ⟨_, rfl⟩
    · obtain ⟨c, e, _⟩ := storeByte_spec (v := 255 * s) (by linarith [hn.1]) (by linarith [hn.2])
      exact ⟨c, e⟩
    · exact ⟨_, rfl⟩
    · exact ⟨_, rfl⟩
  rcases hidx w (ratTrunc xp) hw (truncInt_fits hx).2 with ⟨ea, _⟩ | ⟨a0, a1, ea, ha0, ha1⟩
  · unfold warpPixel
    rw [(truncInt_fits hx).1, (truncInt_fits hy).1]
    simp only [Res.ok_bind]
    rw [ea]
    simp only [Res.ok_bind]
    rcases hidx h (ratTrunc yp) hh (truncInt_fits hy).2 with ⟨eb, _⟩ | ⟨b0, b1, eb, hb0, hb1⟩ <;> rw [eb] <;> exact hbg
  · rcases hidx h (ratTrunc yp) hh (truncInt_fits hy).2 with ⟨eb, _⟩ | ⟨b0, b1, eb, hb0, hb1⟩
    · unfold warpPixel
      rw [(truncInt_fits hx).1, (truncInt_fits hy).1]
      simp only [Res.ok_bind]
      rw [ea, eb]
      exact hbg
    · rw [warpPixel_spec (s := s) hs hx hy ea eb ha0 ha1 hb0 hb1]
      have hfr : ∀ q : Rat, -1 ≤ q - ratTrunc q ∧ q - ratTrunc q ≤ 1 := by
        intro q
        by_cases h0 : q < 0
        · rw [ratTrunc_neg h0]
          have l1 := Int.floor_le (-q)
          have l2 := Int.lt_floor_add_one (-q)
          push_cast
          constructor <;> linarith
        · rw [ratTrunc_nonneg (not_lt.mp h0)]
          have l1 := Int.floor_le q
          have l2 := Int.lt_floor_add_one q
          constructor <;> linarith
      have hbd : ∀ u v a b c d : Rat, -1 ≤ u ∧ u ≤ 1 → -1 ≤ v ∧ v ≤ 1 → 0 ≤ a ∧ a ≤ 255 → 0 ≤ b ∧ b ≤ 255 → 0 ≤ c ∧ c ≤ 255 →
          0 ≤ d ∧ d ≤ 255 → IntRange (bilinear u v a b c d) := by
        intro u v a b c d hu hv ha hb hc hd
        have line : ∀ t p q M : Rat, -1 ≤ t ∧ t ≤ 1 → |p| ≤ M → |q| ≤ M → |(1 - t) * p + t * q| ≤ 3 * M := by
          intro t p q M ht hp hq
          have h1 : |1 - t| ≤ 2 := abs_le.mpr ⟨by linarith [ht.2], by linarith [ht.1]⟩
          have h2 : |t| ≤ 1 := abs_le.mpr ⟨ht.1, ht.2⟩
          have h3 := abs_add_le ((1 - t) * p) (t * q)
          rw [abs_mul, abs_mul] at h3
          have h4 : |1 - t| * |p| ≤ 2 * M := mul_le_mul h1 hp (abs_nonneg _) (by norm_num)
          have h5 : |t| * |q| ≤ 1 * M := mul_le_mul h2 hq (abs_nonneg _) (by norm_num)
          linarith
        have ab : ∀ x : Rat, 0 ≤ x ∧ x ≤ 255 → |x| ≤ 255 := fun x hx => abs_le.mpr ⟨by linarith [hx.1], hx.2⟩
        have r := line v _ _ _ hv (line u a b 255 hu (ab a ha) (ab b hb)) (line u c d 255 hu (ab c hc) (ab d hd))
        have r' := abs_le.mp r
        unfold IntRange bilinear
        constructor <;> linarith [r'.1, r'.2]
      have hv : ∀ b : Byte, 0 ≤ byteVal b ∧ byteVal b ≤ 255 := fun b => ⟨byteVal_nonneg b, byteVal_le b⟩
      rw [(truncInt_fits (hbd _ _ _ _ _ _ (hfr xp) (hfr yp) (hv _) (hv _) (hv _) (hv _))).1]
      exact ⟨_, rfl⟩

end

/-! ## Whole images -/

/-- C78. All pixels of the destination are set, each to the value for its own position. -/
theorem c78_warp {mode : WarpMode} {dw dh dst sw sh sst : Nat} {dest src : List Byte} {t : Nat → Rat} {noise : Nat → Nat → Rat}
    (hsw : sw * 2 ≤ 2147483647) (hsh : sh * 2 ≤ 2147483647) (hst : dw ≤ dst) (hd : dest.length = dst * dh) {S : Nat → Nat → Byte}
    (hS : ∀ x y, x < dw → y < dh → warpPixel mode sw sh src sst (y * t 3 + t 6 + x * t 0) (y * t 4 + t 7 + x * t 1) (noise x y) = .ok (S
      x y)) :
    ∃ d, warpAffine mode dw dh dest dst sw sh src sst t noise = .ok d ∧ d.length = dest.length ∧
      ∀ x y : Nat, x < dw → y < dh → d[y * dst + x]? = some (S x y) := by
  obtain ⟨d, e, hF⟩ := fill_spec (st := dst) (H := dh) (w := dw) (f := S) (d0 := dest)
    (body := fun y x d => do
      let b ← warpPixel mode sw sh src sst (y * t 3 + t 6 + x * t 0) (y * t 4 + t 7 + x * t 1) (noise x y)
      writeAt d (y * dst + x) b) hst hd (by
      intro y x d' hy hx hd'
      rw [hS x y hx hy]
      simp only [Res.ok_bind]
      exact writeAt_ok _ (by rw [hd']; exact pixIdx_lt (by omega) hy))
  refine ⟨d, ?_, by rw [hF.1, hd], fun x y hx hy => hF.2 x y hx (Or.inl hy)⟩
  unfold warpAffine
  rw [if_neg (by omega)]
  exact e

/-- C78. Warping with the unit matrix and black background copies the image but for its last column and row, which become black. -/
theorem c78_identity {src : GImage Byte} {w h : Nat} {f : Nat → Nat → Byte} (hs : src.Shows w h f) (hw : 0 < w) (hh : 0 < h)
    (hsw : w * 2 ≤ 2147483647) (hsh : h * 2 ≤ 2147483647) {dest : List Byte} {dst : Nat} (hst : w ≤ dst) (hd : dest.length = dst * h)
    (noise : Nat → Nat → Rat) :
    ∃ d, warpAffine .black w h dest dst w h src.data src.stride (fun k => if k = 0 ∨ k = 4 then 1 else 0) noise = .ok d ∧
      ∀ x y : Nat, x < w → y < h → d[y * dst + x]? = some (if x + 1 < w ∧ y + 1 < h then f x y else 0) := by
  obtain ⟨d, e, _, hd'⟩ := c78_warp (mode := .black) (dw := w) (dh := h) (dst := dst) (sw := w) (sh := h) (sst := src.stride)
    (dest := dest) (src := src.data) (t := fun k => if k = 0 ∨ k = 4 then 1 else 0) (noise := noise) hsw hsh hst hd
    (S := fun x y => if x + 1 < w ∧ y + 1 < h then f x y else 0) (by
      intro x y hx hy
      have ex : ((y : Rat) * (if (3 : Nat) = 0 ∨ (3 : Nat) = 4 then 1 else 0) + (if (6 : Nat) = 0 ∨ (6 : Nat) = 4 then 1 else 0)
          + (x : Rat) * (if (0 : Nat) = 0 ∨ (0 : Nat) = 4 then 1 else 0)) = x := by norm_num
      have ey : ((y : Rat) * (if (4 : Nat) = 0 ∨ (4 : Nat) = 4 then 1 else 0) + (if (7 : Nat) = 0 ∨ (7 : Nat) = 4 then 1 else 0)
          + (x : Rat) * (if (1 : Nat) = 0 ∨ (1 : Nat) = 4 then 1 else 0)) = y := by norm_num
      refine Eq.trans (congrArg₂ (fun a b => warpPixel .black w h src.data src.stride a b (noise x y)) ex ey) ?_
      by_cases hc : x + 1 < w ∧ y + 1 < h
      · rw [if_pos hc]
        exact c78_pixel hs (by omega) (by omega) hc.1 hc.2
      · rw [if_neg hc]
        have hfit : ∀ k n : Nat, k < n → n * 2 ≤ 2147483647 → IntRange (k : Rat) := by
          intro k n h1 h2
          have : (k : Rat) < 2147483647 := by exact_mod_cast (show k < 2147483647 by omega)
          have h0 : (0 : Rat) ≤ k := Nat.cast_nonneg k
          exact ⟨by linarith, this⟩
        have hout : ∀ k n : Nat, k < n → ¬ k + 1 < n → Outside n (k : Rat) := by
          intro k n h1 h2
          right
          have : n = k + 1 := by omega
          rw [this]
          push_cast
          linarith
        rw [warpPixel_background (Or.inl rfl) hw hh (hfit x w hx hsw) (hfit y h hy hsh) (by
          by_cases h1 : x + 1 < w
          · exact Or.inr (hout y h hy (fun h2 => hc ⟨h1, h2⟩))
          · exact Or.inl (hout x w hx h1))]
        rfl)
  exact ⟨d, e, hd'⟩

example : warpAffine .white 2 2 [7, 7, 7, 7] 2 3 3 [10, 20, 30, 40, 50, 60, 70, 80, 90] 3
    (fun k => if k = 0 ∨ k = 4 then 1 else if k = 6 then 1 / 2 else 0) (fun _ _ => 0) = .ok [15, 25, 45, 55] := by decide +kernel

/-! ## Rotation -/

/-- C78. The centre of the destination comes from the centre of the source. -/
theorem c78_rotate_centre (c cw : Rat) (dw dh sw sh : Nat) :
    let t := rotateT c cw dw dh sw sh
    (dh : Rat) / 2 * t 3 + t 6 + dw / 2 * t 0 = sw / 2 ∧ (dh : Rat) / 2 * t 4 + t 7 + dw / 2 * t 1 = sh / 2 := by
  simp only [rotateT]
  constructor <;> ring

/-- C78. The transformation scales all lengths by the same factor, which is one if `c` is the root of one half (no rational number
is, so the code has an approximation too), and turns by 45 degrees: the diagonals go to the axes. -/
theorem c78_rotate_rigid {c cw : Rat} (hcw : cw = 1 ∨ cw = -1) (dw dh sw sh : Nat) (dx dy : Rat) :
    let t := rotateT c cw dw dh sw sh
    (dy * t 3 + dx * t 0) ^ 2 + (dy * t 4 + dx * t 1) ^ 2 = 2 * c ^ 2 * (dx ^ 2 + dy ^ 2) ∧
      (cw * dx) * t 4 + dx * t 1 = 0 ∧ (-(cw * dx)) * t 3 + dx * t 0 = 0 := by
  have h1 : cw ^ 2 = 1 := by rcases hcw with e | e <;> rw [e] <;> norm_num
  simp only [rotateT]
  refine ⟨?_, by ring, by rcases hcw with e | e <;> rw [e] <;> ring⟩
  have : (dy * (cw * c) + dx * c) ^ 2 + (dy * c + dx * -(cw * c)) ^ 2 = (dy ^ 2 * cw ^ 2 + dx ^ 2 + dy ^ 2 + dx ^ 2 * cw ^ 2) * c ^ 2 := by
    ring
  rw [this, h1]
  ring

/-- C78. Rotation of 8-bit images is warping with a black background. -/
theorem c78_rotate {c : Rat} {cw : Bool} {dest src : GImage Byte} (hd : dest.Wf) {S : Nat → Nat → Byte}
    (hS : ∀ x y : Nat, x < dest.width → y < dest.height →
      let t := rotateT c (if cw then 1 else -1) dest.width dest.height src.width src.height
      warpPixel .black src.width src.height src.data src.stride (y * t 3 + t 6 + x * t 0) (y * t 4 + t 7 + x * t 1) 0 = .ok (S x y)) :
    ∃ d, rotate45Uc c cw dest src = .ok d ∧ d.Wf ∧ d.Shows dest.width dest.height S := by
  obtain ⟨d, e, hF⟩ := fill_spec (st := dest.stride) (H := dest.height) (w := dest.width) (f := S) (d0 := dest.data)
    (body := fun y x d => do
      let t := rotateT c (if cw then 1 else -1) dest.width dest.height src.width src.height
      let b ← warpPixel .black src.width src.height src.data src.stride (y * t 3 + t 6 + x * t 0) (y * t 4 + t 7 + x * t 1) 0
      writeAt d (y * dest.stride + x) b) hd.stride_ge hd.length_eq (by
      intro y x d' hy hx hd'
      have := hS x y hx hy
      simp only at this ⊢
      rw [this]
      simp only [Res.ok_bind]
      exact writeAt_ok _ (by rw [hd']; exact pixIdx_lt (by have := hd.stride_ge; omega) hy))
  refine ⟨{ dest with data := d }, ?_, ⟨hd.stride_ge, hF.1⟩, rfl, rfl, fun x y hx hy => hF.2 x y hx (Or.inl hy)⟩
  unfold rotate45Uc
  simp only at e ⊢
  rw [e]
  rfl

/-- A number between -1 and 1 is truncated to zero. -/
theorem truncInt_small {q : Rat} (h0 : -1 < q) (h1 : q < 1) : truncInt q = .ok 0 := by
  have : ratTrunc q = 0 := by
    by_cases hn : q < 0
    · rw [ratTrunc_neg hn]
      have : ⌊-q⌋ = 0 := by
        rw [Int.floor_eq_zero_iff]
        exact ⟨by linarith, by linarith⟩
      rw [this]
      rfl
    · rw [ratTrunc_nonneg (not_lt.mp hn), Int.floor_eq_zero_iff]
      exact ⟨not_lt.mp hn, h1⟩
  unfold truncInt
  rw [this]
  rfl

/-- One pixel of a rotated `float` image whose samples are from 0 to below 1, at a position that is not negative. -/
theorem rotatePixelF32_dark {src : GImage Rat} {w h : Nat} {f : Nat → Nat → Rat} (hs : src.Shows w h f)
    (hf : ∀ x y, x < w → y < h → 0 ≤ f x y ∧ f x y < 1) {xp yp : Rat} (hx : IntRange xp) (hy : IntRange yp) (hx0 : xp ≤ -1 ∨ 0 ≤ xp)
    (hy0 : yp ≤ -1 ∨ 0 ≤ yp) (hw : 0 < w) (hh : 0 < h) : rotatePixelF32 w h src.data src.stride xp yp = .ok 0 := by
  have hidx : ∀ (n : Nat) (q : Rat), IntRange q → 0 < n → (q ≤ -1 ∨ 0 ≤ q) → warpIndex .black n (ratTrunc q) = .ok none ∨
      (warpIndex .black n (ratTrunc q) = .ok (some (⌊q⌋, ⌊q⌋ + 1)) ∧ 0 ≤ ⌊q⌋ ∧ ⌊q⌋ + 1 < n ∧ ratTrunc q = ⌊q⌋) := by
    intro n q hq hn h0
    unfold warpIndex
    simp only
    rw [if_neg (truncInt_fits hq).2]
    by_cases hc : ratTrunc q < 0 ∨ ratTrunc q ≥ (n : Int) - 1
    · rw [if_pos hc]
      exact Or.inl rfl
    · rw [if_neg hc]
      rcases h0 with h0 | h0
      · exact absurd (trunc_outside hn (Or.inl h0)) hc
      · rw [ratTrunc_nonneg h0] at hc ⊢
        exact Or.inr ⟨rfl, by omega, by omega, rfl⟩
  unfold rotatePixelF32
  rw [(truncInt_fits hx).1, (truncInt_fits hy).1]
  simp only [Res.ok_bind]
  rcases hidx w xp hx hw hx0 with e | ⟨e, x0, x1, ex⟩
  · rw [e]
    rcases hidx h yp hy hh hy0 with e' | ⟨e', _⟩ <;> rw [e'] <;> rfl
  · rw [e]
    rcases hidx h yp hy hh hy0 with e' | ⟨e', y0, y1, ey⟩
    · rw [e']
      rfl
    · rw [e']
      simp only [Res.ok_bind]
      rw [readFour_spec hs (by omega) (by omega) (by omega) (by omega), ex, ey]
      simp only [Res.ok_bind]
      obtain ⟨m, hm0, hm1, hm⟩ : ∃ m : Rat, 0 ≤ m ∧ m < 1 ∧ ∀ v ∈ [f (⌊xp⌋).toNat (⌊yp⌋).toNat, f (⌊xp⌋ + 1).toNat (⌊yp⌋).toNat,
          f (⌊xp⌋).toNat (⌊yp⌋ + 1).toNat, f (⌊xp⌋ + 1).toNat (⌊yp⌋ + 1).toNat], 0 ≤ v ∧ v ≤ m := by
        have a := hf (⌊xp⌋).toNat (⌊yp⌋).toNat (by omega) (by omega)
        have b := hf (⌊xp⌋ + 1).toNat (⌊yp⌋).toNat (by omega) (by omega)
        have c := hf (⌊xp⌋).toNat (⌊yp⌋ + 1).toNat (by omega) (by omega)
        have d := hf (⌊xp⌋ + 1).toNat (⌊yp⌋ + 1).toNat (by omega) (by omega)
        refine ⟨max (max (f (⌊xp⌋).toNat (⌊yp⌋).toNat) (f (⌊xp⌋ + 1).toNat (⌊yp⌋).toNat))
          (max (f (⌊xp⌋).toNat (⌊yp⌋ + 1).toNat) (f (⌊xp⌋ + 1).toNat (⌊yp⌋ + 1).toNat)), ?_, ?_, ?_⟩
        · exact le_max_of_le_left (le_max_of_le_left a.1)
        · exact max_lt (max_lt a.2 b.2) (max_lt c.2 d.2)
        · intro v hv
          simp only [List.mem_cons, List.not_mem_nil, or_false] at hv
          rcases hv with e | e | e | e <;> rw [e]
          · exact ⟨a.1, le_max_of_le_left (le_max_left _ _)⟩
          · exact ⟨b.1, le_max_of_le_left (le_max_right _ _)⟩
          · exact ⟨c.1, le_max_of_le_right (le_max_left _ _)⟩
          · exact ⟨d.1, le_max_of_le_right (le_max_right _ _)⟩
      have m1 := hm (f (⌊xp⌋).toNat (⌊yp⌋).toNat) (by simp)
      have m2 := hm (f (⌊xp⌋ + 1).toNat (⌊yp⌋).toNat) (by simp)
      have m3 := hm (f (⌊xp⌋).toNat (⌊yp⌋ + 1).toNat) (by simp)
      have m4 := hm (f (⌊xp⌋ + 1).toNat (⌊yp⌋ + 1).toNat) (by simp)
      have hr := bilinear_range (u := xp - ⌊xp⌋) (v := yp - ⌊yp⌋) (Int.fract_nonneg xp) (Int.fract_lt_one xp).le (Int.fract_nonneg yp)
        (Int.fract_lt_one yp).le m1 m2 m3 m4
      rw [truncInt_small (by linarith [hr.1]) (by linarith [hr.2])]
      rfl

/-- C78 fails for `float` images: one with samples from 0 to below 1 becomes black, because the interpolated value is an `int`. -/
theorem c78_rotate_f32_dark {c : Rat} {cw : Bool} {dest src : GImage Rat} (hd : dest.Wf) {f : Nat → Nat → Rat}
    (hs : src.Shows src.width src.height f) (hf : ∀ x y, x < src.width → y < src.height → 0 ≤ f x y ∧ f x y < 1)
    (hw : 0 < src.width) (hh : 0 < src.height)
    (ht : ∀ x y : Nat, x < dest.width → y < dest.height →
      let t := rotateT c (if cw then 1 else -1) dest.width dest.height src.width src.height
      let xp := y * t 3 + t 6 + x * t 0
      let yp := y * t 4 + t 7 + x * t 1
      IntRange xp ∧ IntRange yp ∧ (xp ≤ -1 ∨ 0 ≤ xp) ∧ (yp ≤ -1 ∨ 0 ≤ yp)) :
    ∃ d, rotate45F32 c cw dest src = .ok d ∧ d.Wf ∧ d.Shows dest.width dest.height (fun _ _ => 0) := by
  obtain ⟨d, e, hF⟩ := fill_spec (st := dest.stride) (H := dest.height) (w := dest.width) (f := fun _ _ => (0 : Rat)) (d0 := dest.data)
    (body := fun y x d => do
      let t := rotateT c (if cw then 1 else -1) dest.width dest.height src.width src.height
      let b ← rotatePixelF32 src.width src.height src.data src.stride (y * t 3 + t 6 + x * t 0) (y * t 4 + t 7 + x * t 1)
      writeAt d (y * dest.stride + x) b) hd.stride_ge hd.length_eq (by
      intro y x d' hy hx hd'
      obtain ⟨h1, h2, h3, h4⟩ := ht x y hx hy
      simp only
      rw [rotatePixelF32_dark hs hf h1 h2 h3 h4 hw hh]
      simp only [Res.ok_bind]
      exact writeAt_ok _ (by rw [hd']; exact pixIdx_lt (by have := hd.stride_ge; omega) hy))
  refine ⟨{ dest with data := d }, ?_, ⟨hd.stride_ge, hF.1⟩, rfl, rfl, fun x y hx hy => hF.2 x y hx (Or.inl hy)⟩
  unfold rotate45F32
  simp only at e ⊢
  rw [e]
  rfl

example : rotate45F32 (7 / 10) true ⟨1, 1, 1, [7]⟩ ⟨3, 3, 3, [1/2, 1/2, 1/2, 1/2, 9/10, 1/2, 1/2, 1/2, 1/2]⟩ = .ok ⟨1, 1, 1, [0]⟩ := by
  decide +kernel

/-! ## Scaling -/

section
variable {α : Type} {conv : α → Rat} {store : Rat → Res α} {junk : Nat → α} {dest src : GImage α} {w h : Nat} {f : Nat → Nat → α} {s : Rat}

/-- The last of the `⌊n s⌋` positions lies before the last of the `n` samples. -/
def ScaledInside (n : Nat) (s : Rat) : Prop := ((⌊(n : Rat) * s⌋ : Int) : Rat) - 1 < ((n : Rat) - 1) * s

instance (n : Nat) (s : Rat) : Decidable (ScaledInside n s) := inferInstanceAs (Decidable (_ < _))

theorem scaledInside_of_lt (n : Nat) (hs1 : s < 1) : ScaledInside n s := by
  unfold ScaledInside
  have := Int.floor_le ((n : Rat) * s)
  linarith

theorem scaleSize {n : Nat} (hs0 : 0 < s) (hfit : ScaledInside n s) (hn : ⌊(n : Rat) * s⌋ ≤ 2147483647) :
    truncInt (n * s) = .ok (⌊(n : Rat) * s⌋) ∧ 0 ≤ ⌊(n : Rat) * s⌋ ∧
      ∀ k : Nat, k < (⌊(n : Rat) * s⌋).toNat → 0 ≤ (k : Rat) * (1 / s) ∧ (k : Rat) * (1 / s) < (n : Rat) - 1 := by
  have h0 : (0 : Rat) ≤ n := Nat.cast_nonneg n
  have hns : 0 ≤ (n : Rat) * s := mul_nonneg h0 hs0.le
  have hf0 : 0 ≤ ⌊(n : Rat) * s⌋ := Int.floor_nonneg.mpr hns
  refine ⟨?_, hf0, ?_⟩
  · unfold truncInt
    rw [ratTrunc_nonneg hns, if_pos (by unfold InI32; omega)]
  · intro k hk
    refine ⟨mul_nonneg (Nat.cast_nonneg k) (by positivity), ?_⟩
    have h2 : ((k + 1 : Nat) : Int) ≤ ⌊(n : Rat) * s⌋ := by omega
    have h3 : (((k + 1 : Nat) : Int) : Rat) ≤ ((⌊(n : Rat) * s⌋ : Int) : Rat) := by exact_mod_cast h2
    push_cast at h3
    unfold ScaledInside at hfit
    rw [mul_one_div, div_lt_iff₀ hs0]
    linarith

/-- One pixel inside of the source. -/
theorem scalePixel_spec (hs : src.Shows w h f) (hw : w ≤ 2147483647) (hh : h ≤ 2147483647) {xp yp : Rat} (hx0 : 0 ≤ xp)
    (hx1 : xp < (w : Rat) - 1) (hy0 : 0 ≤ yp) (hy1 : yp < (h : Rat) - 1) :
    scalePixel conv store src.data src.stride xp yp = store (bilinearAt (fun i j => conv (f i.toNat j.toNat)) xp yp) := by
  obtain ⟨x1, x2⟩ := floor_inside hx0 hx1
  obtain ⟨y1, y2⟩ := floor_inside hy0 hy1
  unfold scalePixel
  rw [(truncInt_fits (fits_of hx0 hx1 hw)).1, (truncInt_fits (fits_of hy0 hy1 hh)).1, ratTrunc_nonneg hx0, ratTrunc_nonneg hy0]
  simp only [Res.ok_bind]
  rw [readFour_spec hs (by omega) (by omega) (by omega) (by omega)]
  rfl

/-- C79. When the last position lies before the last sample in both directions, every pixel is the interpolation at its position divided
by the scale, and only pixels of the source are read. -/
theorem c79_scale_inside (hd : dest.Wf) (hs : src.Shows w h f) (hw : w ≤ 2147483647) (hh : h ≤ 2147483647)
    (bw : ⌊(w : Rat) * s⌋ ≤ 2147483647) (bh : ⌊(h : Rat) * s⌋ ≤ 2147483647)
    (hsz' : (⌊(w : Rat) * s⌋).toNat * (⌊(h : Rat) * s⌋).toNat ≤ 2147483647) (hs0 : 0 < s) (fw : ScaledInside w s) (fh : ScaledInside h s)
    {S : Nat → Nat → α}
    (hS : ∀ x y : Nat, x < (⌊(w : Rat) * s⌋).toNat → y < (⌊(h : Rat) * s⌋).toNat →
      store (bilinearAt (fun i j => conv (f i.toNat j.toNat)) (x / s) (y / s)) = .ok (S x y)) :
    ∃ d, gScale conv store junk dest src s = .ok d ∧ d.Wf ∧ d.Shows (⌊(w : Rat) * s⌋).toNat (⌊(h : Rat) * s⌋).toNat S := by
  have e1 := hs.width_eq
  have e2 := hs.height_eq
  obtain ⟨tw, w0, wx⟩ := scaleSize hs0 fw bw
  obtain ⟨th, h0, hx⟩ := scaleSize hs0 fh bh
  obtain ⟨d, ed, dw, dh, ds, dl⟩ := gResize_ok (junk := junk) (st := (⌊(w : Rat) * s⌋).toNat) hd hsz' (Nat.le_refl _)
  obtain ⟨d', e, hF⟩ := fill_spec (st := d.stride) (H := d.height) (w := d.width) (f := S) (d0 := d.data)
    (body := fun y x d' => do
      let v ← scalePixel conv store src.data src.stride (x * (1 / s)) (y * (1 / s))
      writeAt d' (y * d.stride + x) v) (by omega) (by rw [dl, ds, dh]) (by
      intro y x d' hy hx' hd'
      rw [dh] at hy
      rw [dw] at hx'
      have a := wx x hx'
      have b := hx y hy
      rw [scalePixel_spec hs hw hh a.1 a.2 b.1 b.2, mul_one_div, mul_one_div, hS x y hx' hy]
      simp only [Res.ok_bind]
      exact writeAt_ok _ (by rw [hd']; exact pixIdx_lt (by omega) (by omega)))
  refine ⟨{ d with data := d' }, ?_, ⟨by simp only; omega, by rw [hF.1]⟩, dw, dh, fun x y hx hy => hF.2 x y (by omega) (Or.inl (by omega))⟩
  unfold gScale
  rw [e1, e2, tw, th]
  simp only [Res.ok_bind]
  rw [if_neg (by omega), ed]
  simp only [Res.ok_bind]
  rw [e]
  rfl

/-- C79. An image is made smaller: every pixel is the interpolation at its position divided by the scale, and only pixels of the
source are read. -/
theorem c79_scale_down (hd : dest.Wf) (hs : src.Shows w h f) (hw : w ≤ 2147483647) (hh : h ≤ 2147483647)
    (hsz : w * h ≤ 2147483647) (hs0 : 0 < s) (hs1 : s < 1) {S : Nat → Nat → α}
    (hS : ∀ x y : Nat, x < (⌊(w : Rat) * s⌋).toNat → y < (⌊(h : Rat) * s⌋).toNat →
      store (bilinearAt (fun i j => conv (f i.toNat j.toNat)) (x / s) (y / s)) = .ok (S x y)) :
    ∃ d, gScale conv store junk dest src s = .ok d ∧ d.Wf ∧ d.Shows (⌊(w : Rat) * s⌋).toNat (⌊(h : Rat) * s⌋).toNat S := by
  have le : ∀ n : Nat, ⌊(n : Rat) * s⌋ ≤ n := by
    intro n
    have h0 : (0 : Rat) ≤ n := Nat.cast_nonneg n
    have : (n : Rat) * s ≤ (n : Int) := by
      push_cast
      nlinarith
    have := Int.floor_le_floor this
    rwa [Int.floor_intCast] at this
  have lw := le w
  have lh := le h
  exact c79_scale_inside hd hs hw hh (by omega) (by omega) (le_trans (Nat.mul_le_mul (by omega) (by omega)) hsz) hs0
    (scaledInside_of_lt w hs1) (scaledInside_of_lt h hs1) hS

end

/-- C79, `float`. -/
theorem c79_scale_f32 {junk : Nat → Rat} {dest src : GImage Rat} {w h : Nat} {f : Nat → Nat → Rat} {s : Rat} (hd : dest.Wf)
    (hs : src.Shows w h f) (hw : w ≤ 2147483647) (hh : h ≤ 2147483647) (hsz : w * h ≤ 2147483647) (hs0 : 0 < s) (hs1 : s < 1) :
    ∃ d, gScale id .ok junk dest src s = .ok d ∧ d.Wf ∧ d.Shows (⌊(w : Rat) * s⌋).toNat (⌊(h : Rat) * s⌋).toNat
      (fun x y => bilinearAt (fun i j => f i.toNat j.toNat) (x / s) (y / s)) :=
  c79_scale_down hd hs hw hh hsz hs0 hs1 (fun _ _ _ _ => rfl)

/-- C79, 8-bit: rounded down. -/
theorem c79_scale_uc {junk : Nat → Byte} {dest src : GImage Byte} {w h : Nat} {f : Nat → Nat → Byte} {s : Rat} (hd : dest.Wf)
    (hs : src.Shows w h f) (hw : w ≤ 2147483647) (hh : h ≤ 2147483647) (hsz : w * h ≤ 2147483647) (hs0 : 0 < s) (hs1 : s < 1) :
    ∃ d S, gScale byteVal storeClamped junk dest src s = .ok d ∧ d.Wf ∧ d.Shows (⌊(w : Rat) * s⌋).toNat (⌊(h : Rat) * s⌋).toNat S ∧
      ∀ x y : Nat, byteVal (S x y) ≤ bilinearAt (continued f Int.toNat Int.toNat) (x / s) (y / s) ∧
        bilinearAt (continued f Int.toNat Int.toNat) (x / s) (y / s) < byteVal (S x y) + 1 := by
  have hst : ∀ v : Rat, 0 ≤ v → v ≤ 255 → ∃ c, storeClamped v = .ok c ∧ byteVal c ≤ v ∧ v < byteVal c + 1 := by
    intro v h0 h1
    obtain ⟨I, eI, hI⟩ := clampByte_floor h0 h1
    have hle : ⌊v⌋ ≤ 255 := by
      have := Int.floor_le_floor h1
      have e : ⌊(255 : Rat)⌋ = 255 := by norm_num
      rwa [e] at this
    have hge : 0 ≤ ⌊v⌋ := Int.floor_nonneg.mpr h0
    have : I = ratTrunc v := by
      unfold truncInt at eI
      rw [if_pos (by rw [ratTrunc_nonneg h0]; unfold InI32; omega)] at eI
      exact (Res.ok.inj eI).symm
    refine ⟨clampByte I, ?_, hI⟩
    unfold storeClamped
    simp only
    rw [if_pos (by rw [ratTrunc_nonneg h0]; omega), this]
  have hr := fun x y : Nat => bilinearAt_range (continued_range (f := f) Int.toNat Int.toNat) ((x : Rat) / s) ((y : Rat) / s)
  choose S h1 h2 using fun x y : Nat => hst _ (hr x y).1 (hr x y).2
  obtain ⟨d, e, q1, q2⟩ := c79_scale_down (conv := byteVal) (store := storeClamped) (junk := junk) hd hs hw hh hsz hs0 hs1 (S := S)
    (fun x y _ _ => h1 x y)
  exact ⟨d, S, e, q1, q2, h2⟩

example : gScale id .ok (fun _ => 0) ⟨0, 0, 0, []⟩ (⟨4, 4, 4, [0, 1, 2, 3, 4, 5, 6, 7, 8, 9, 10, 11, 12, 13, 14, 15]⟩ : GImage Rat) (1 /
  2) =
    .ok ⟨2, 2, 2, [0, 2, 8, 10]⟩ := by decide +kernel

/-! ### Larger images -/

theorem forLoop_ub_at {σ : Type} {n : Nat} {body : Nat → σ → Res σ} (hnf : ∀ i s, body i s ≠ .fatal) {k : Nat} (hk : k < n)
    (hub : ∀ s, body k s = .ub) (i0 : Nat) (hi : i0 ≤ k) (s : σ) : forLoop n body i0 s = .ub := by
  induction hm : k - i0 generalizing i0 s with
  | zero =>
    have : i0 = k := by omega
    subst this
    exact forLoop_ub hk (hub s)
  | succ m ih =>
    rw [forLoop, if_pos (by omega)]
    cases hb : body i0 s with
    | ok s' => exact ih (i0 + 1) (by omega) s' (by omega)
    | fatal => exact absurd hb (hnf i0 s)
    | ub => rfl

theorem forLoop_not_fatal {σ : Type} {n : Nat} {body : Nat → σ → Res σ} (hnf : ∀ i s, body i s ≠ .fatal) (i0 : Nat) (s : σ) :
    forLoop n body i0 s ≠ .fatal := by
  induction hm : n - i0 generalizing i0 s with
  | zero =>
    rw [forLoop, if_neg (by omega)]
    intro h
    cases h
  | succ m ih =>
    rw [forLoop, if_pos (by omega)]
    cases hb : body i0 s with
    | ok s' => exact ih (i0 + 1) s' (by omega)
    | fatal => exact absurd hb (hnf i0 s)
    | ub => intro h; cases h

theorem readFour_not_fatal {α : Type} (l : List α) (st : Nat) (ix iy : Int × Int) : readFour l st ix iy ≠ .fatal := by
  unfold readFour
  rcases readI_cases l (iy.1 * st + ix.1) with e | ⟨a, e⟩ <;> rw [e]
  · intro h; cases h
  rcases readI_cases l (iy.1 * st + ix.2) with e | ⟨b, e⟩ <;> simp only [Res.ok_bind] <;> rw [e]
  · intro h; cases h
  rcases readI_cases l (iy.2 * st + ix.1) with e | ⟨c, e⟩ <;> simp only [Res.ok_bind] <;> rw [e]
  · intro h; cases h
  rcases readI_cases l (iy.2 * st + ix.2) with e | ⟨d, e⟩ <;> simp only [Res.ok_bind] <;> rw [e] <;> intro h <;> cases h

theorem scaleLast {s : Rat} (hs1 : 1 ≤ s) {n : Nat} (hn : 0 < n) (hb : (n : Rat) * s ≤ 32767) :
    truncInt (n * s) = .ok ⌊(n : Rat) * s⌋ ∧ 1 ≤ ⌊(n : Rat) * s⌋ ∧ ⌊(n : Rat) * s⌋ ≤ 32767 ∧
      truncInt (((⌊(n : Rat) * s⌋).toNat - 1 : Nat) * (1 / s)) = .ok (if ScaledInside n s then (n : Int) - 2 else n - 1) := by
  have hs0 : 0 < s := by linarith
  have h1 : (1 : Rat) ≤ n := by exact_mod_cast hn
  have hge : 1 ≤ (n : Rat) * s := by nlinarith
  have hn' : n ≤ 32767 := by
    have : (n : Rat) ≤ 32767 := by nlinarith
    exact_mod_cast this
  have hle : ⌊(n : Rat) * s⌋ ≤ 32767 := by
    have := Int.floor_le_floor hb
    have e : ⌊(32767 : Rat)⌋ = 32767 := by norm_num
    rwa [e] at this
  have hf1 : 1 ≤ ⌊(n : Rat) * s⌋ := by
    rw [Int.le_floor]
    exact_mod_cast hge
  obtain ⟨k, hk⟩ : ∃ k : Nat, (⌊(n : Rat) * s⌋).toNat - 1 = k := ⟨_, rfl⟩
  have hk' : (k : Rat) + 1 = ((⌊(n : Rat) * s⌋ : Int) : Rat) := by
    have : (k : Int) + 1 = ⌊(n : Rat) * s⌋ := by omega
    rw [← this]
    push_cast
    rfl
  have l1 := Int.floor_le ((n : Rat) * s)
  have l2 := Int.lt_floor_add_one ((n : Rat) * s)
  refine ⟨?_, hf1, hle, ?_⟩
  · unfold truncInt
    rw [ratTrunc_nonneg (by linarith), if_pos (by unfold InI32; omega)]
  · have e : ⌊(k : Rat) * (1 / s)⌋ = if ScaledInside n s then (n : Int) - 2 else n - 1 := by
      rw [Int.floor_eq_iff, mul_one_div, le_div_iff₀ hs0, div_lt_iff₀ hs0]
      split
      · rename_i hi
        unfold ScaledInside at hi
        push_cast
        constructor <;> nlinarith
      · rename_i hi
        unfold ScaledInside at hi
        push_cast
        constructor <;> nlinarith
    rw [hk]
    unfold truncInt
    rw [ratTrunc_nonneg (mul_nonneg (Nat.cast_nonneg _) (by positivity)), e, if_pos]
    unfold InI32
    split <;> omega

/-- A pixel outside of the source makes the whole call undefined. -/
theorem gScale_ub {α : Type} {conv : α → Rat} {store : Rat → Res α} (hst : ∀ v, store v ≠ .fatal) {junk : Nat → α} {dest src : GImage α}
    {s : Rat} (hd : dest.Wf) (tw : truncInt (src.width * s) = .ok ⌊(src.width : Rat) * s⌋)
    (th : truncInt (src.height * s) = .ok ⌊(src.height : Rat) * s⌋)
    (w2 : ⌊(src.width : Rat) * s⌋ ≤ 32767) (h2 : ⌊(src.height : Rat) * s⌋ ≤ 32767)
    {x y : Nat} (hx : x < (⌊(src.width : Rat) * s⌋).toNat) (hy : y < (⌊(src.height : Rat) * s⌋).toNat)
    (hp : scalePixel conv store src.data src.stride (x * (1 / s)) (y * (1 / s)) = .ub) : gScale conv store junk dest src s = .ub := by
  have hsz : (⌊(src.width : Rat) * s⌋).toNat * (⌊(src.height : Rat) * s⌋).toNat ≤ 2147483647 :=
    le_trans (Nat.mul_le_mul (show _ ≤ 32767 by omega) (show _ ≤ 32767 by omega)) (by norm_num)
  obtain ⟨d, ed, dw, dh, ds, dl⟩ := gResize_ok (junk := junk) (st := (⌊(src.width : Rat) * s⌋).toNat) hd hsz (Nat.le_refl _)
  have hpix : ∀ xp yp, scalePixel conv store src.data src.stride xp yp ≠ .fatal := by
    intro xp yp
    unfold scalePixel
    have ht : ∀ q, truncInt q = .ub ∨ ∃ i, truncInt q = .ok i := by
      intro q
      unfold truncInt
      split
      · exact Or.inr ⟨_, rfl⟩
      · exact Or.inl rfl
    rcases ht yp with e | ⟨yi, e⟩ <;> rw [e]
    · intro h; cases h
    rcases ht xp with e | ⟨xi, e⟩ <;> simp only [Res.ok_bind] <;> rw [e]
    · intro h; cases h
    simp only [Res.ok_bind]
    cases hr : readFour src.data src.stride (xi, xi + 1) (yi, yi + 1) with
    | ub => intro h; cases h
    | fatal => exact absurd hr (readFour_not_fatal _ _ _ _)
    | ok p => exact hst _
  have hbody : ∀ (y x : Nat) (d' : List α), (do
      let v ← scalePixel conv store src.data src.stride (x * (1 / s)) (y * (1 / s))
      writeAt d' (y * d.stride + x) v : Res (List α)) ≠ .fatal := by
    intro y x d'
    cases hp : scalePixel conv store src.data src.stride (x * (1 / s)) (y * (1 / s)) with
    | fatal => exact absurd hp (hpix _ _)
    | ub => intro h; cases h
    | ok v =>
      simp only [Res.ok_bind]
      unfold writeAt
      split <;> intro h <;> cases h
  unfold gScale
  rw [tw, th]
  simp only [Res.ok_bind]
  rw [if_neg (by omega), ed]
  simp only [Res.ok_bind]
  rw [forLoop_ub_at (k := y) (fun y d' => forLoop_not_fatal (hbody y) 0 d') (by omega) _ 0 (Nat.zero_le _)]
  · rfl
  intro d'
  refine forLoop_ub_at (k := x) (hbody y) (by omega) (fun s' => ?_) 0 (Nat.zero_le _) d'
  rw [hp]
  rfl

theorem readFour_ub {α : Type} {l : List α} {st : Nat} {x0 x1 y0 y1 : Int}
    (h : readI l (y1 * st + x0) = .ub ∨ readI l (y1 * st + x1) = .ub) : readFour l st (x0, x1) (y0, y1) = .ub := by
  unfold readFour
  simp only
  rcases readI_cases l (y0 * st + x0) with e | ⟨a, e⟩ <;> rw [e]
  · rfl
  rcases readI_cases l (y0 * st + x1) with e | ⟨a, e⟩ <;> simp only [Res.ok_bind] <;> rw [e]
  · rfl
  rcases readI_cases l (y1 * st + x0) with e | ⟨a, e⟩
  · simp only [Res.ok_bind, e]
    rfl
  · rcases h with h | h
    · rw [h] at e
      cases e
    · simp only [Res.ok_bind, e, h]
      rfl

/-- C79 fails otherwise: when the last position is not before the last row, the row behind it is read. When it is not before the last
column and the rows follow each other without a gap, a sample behind the last row is read too. -/
theorem c79_scale_outside {α : Type} {conv : α → Rat} {store : Rat → Res α} (hst : ∀ v, store v ≠ .fatal) {junk : Nat → α}
    {dest src : GImage α} {s : Rat} (hd : dest.Wf) (hw : src.Wf) (hw0 : 0 < src.width) (hh0 : 0 < src.height)
    (hout : (1 ≤ s ∧ ¬ ScaledInside src.height s) ∨ (src.stride = src.width ∧ ¬ ScaledInside src.width s))
    (hws : (src.width : Rat) * s ≤ 32767) (hhs : (src.height : Rat) * s ≤ 32767) : gScale conv store junk dest src s = .ub := by
  have hs1 : 1 ≤ s := by
    rcases hout with h | h
    · exact h.1
    · exact not_lt.mp (fun h' => h.2 (scaledInside_of_lt _ h'))
  obtain ⟨tw, w1, w2, w3⟩ := scaleLast hs1 hw0 hws
  obtain ⟨th, h1, h2, h3⟩ := scaleLast hs1 hh0 hhs
  by_cases hH : ScaledInside src.height s
  · obtain ⟨e, hW⟩ : src.stride = src.width ∧ ¬ ScaledInside src.width s := by
      rcases hout with h | h
      · exact absurd hH h.2
      · exact h
    refine gScale_ub hst hd tw th w2 h2 (x := (⌊(src.width : Rat) * s⌋).toNat - 1) (y := (⌊(src.height : Rat) * s⌋).toNat - 1)
      (by omega) (by omega) ?_
    unfold scalePixel
    rw [w3, h3, if_pos hH, if_neg hW]
    simp only [Res.ok_bind]
    rw [readFour_ub (Or.inr ?_)]
    · rfl
    · have e' : ((src.height : Int) - 2 + 1) * src.stride + ((src.width : Int) - 1 + 1) = ((src.stride * src.height : Nat) : Int) := by
        rw [e]
        push_cast
        ring
      rw [readI_nat e']
      unfold readAt
      rw [List.getElem?_eq_none (by rw [hw.length_eq])]
  · refine gScale_ub hst hd tw th w2 h2 (x := 0) (y := (⌊(src.height : Rat) * s⌋).toNat - 1) (by omega) (by omega) ?_
    unfold scalePixel
    have e0 : truncInt (((0 : Nat) : Rat) * (1 / s)) = .ok 0 := truncInt_small (by simp) (by simp)
    rw [h3, if_neg hH, e0]
    simp only [Res.ok_bind]
    rw [readFour_ub (Or.inl ?_)]
    · rfl
    · have e' : ((src.height : Int) - 1 + 1) * src.stride + 0 = ((src.stride * src.height : Nat) : Int) := by
        push_cast
        ring
      rw [readI_nat e']
      unfold readAt
      rw [List.getElem?_eq_none (by rw [hw.length_eq])]

/-- C79, exactly, for `float` images without gaps between the rows: the call is defined if and only if the last position lies before the
last sample in both directions, and then it is right. -/
theorem c79_scale_exact {junk : Nat → Rat} {dest src : GImage Rat} {f : Nat → Nat → Rat} {s : Rat} (hd : dest.Wf) (hw : src.Wf)
    (hs : src.Shows src.width src.height f) (hst : src.stride = src.width) (hw0 : 0 < src.width) (hh0 : 0 < src.height) (hs0 : 0 < s)
    (ww : src.width ≤ 32767) (hh : src.height ≤ 32767)
    (hws : (src.width : Rat) * s ≤ 32767) (hhs : (src.height : Rat) * s ≤ 32767) :
    if ScaledInside src.width s ∧ ScaledInside src.height s then
      ∃ d, gScale id .ok junk dest src s = .ok d ∧ d.Wf ∧
        d.Shows (⌊(src.width : Rat) * s⌋).toNat (⌊(src.height : Rat) * s⌋).toNat
          (fun x y => bilinearAt (fun i j => f i.toNat j.toNat) (x / s) (y / s))
    else gScale id .ok junk dest src s = .ub := by
  have le : ∀ n : Nat, (n : Rat) * s ≤ 32767 → ⌊(n : Rat) * s⌋ ≤ 32767 := by
    intro n hb
    have := Int.floor_le_floor hb
    have e : ⌊(32767 : Rat)⌋ = 32767 := by norm_num
    rwa [e] at this
  have lw := le _ hws
  have lh := le _ hhs
  split
  · rename_i h
    exact c79_scale_inside hd hs (by omega) (by omega) (by omega) (by omega)
      (le_trans (Nat.mul_le_mul (show _ ≤ 32767 by omega) (show _ ≤ 32767 by omega)) (by norm_num)) hs0 h.1 h.2 (fun _ _ _ _ => rfl)
  · rename_i h
    refine c79_scale_outside (by intro v hv; cases hv) hd hw hw0 hh0 ?_ hws hhs
    by_cases h' : ScaledInside src.width s
    · have hn : ¬ ScaledInside src.height s := fun h'' => h ⟨h', h''⟩
      exact Or.inl ⟨not_lt.mp (fun q => hn (scaledInside_of_lt _ q)), hn⟩
    · exact Or.inr ⟨hst, h'⟩

/-- Between one and two both happen. -/
example : ScaledInside 2 (11 / 10) ∧ ScaledInside 3 (5 / 4) ∧ ¬ ScaledInside 3 (7 / 5) ∧ ¬ ScaledInside 4 (5 / 4) := by
  unfold ScaledInside
  norm_num [Int.floor_eq_iff]

example : gScale id .ok (fun _ => 0) ⟨0, 0, 0, []⟩ (⟨2, 2, 2, [0, 11, 22, 33]⟩ : GImage Rat) (11 / 10) = .ok ⟨2, 2, 2, [0, 10, 20, 30]⟩
  := by
  decide +kernel

/-- C79 fails for images of the same size or at least twice as large. -/
theorem c79_scale_up {α : Type} {conv : α → Rat} {store : Rat → Res α} (hst : ∀ v, store v ≠ .fatal) {junk : Nat → α} {dest src : GImage α}
    {s : Rat} (hd : dest.Wf) (hw : src.Wf) (hw0 : 0 < src.width) (hh0 : 0 < src.height) (hs : s = 1 ∨ 2 ≤ s)
    (hws : (src.width : Rat) * s ≤ 32767) (hhs : (src.height : Rat) * s ≤ 32767) : gScale conv store junk dest src s = .ub := by
  have hs1 : 1 ≤ s := by rcases hs with h | h <;> linarith
  refine c79_scale_outside hst hd hw hw0 hh0 (Or.inl ⟨hs1, ?_⟩) hws hhs
  · unfold ScaledInside
    rcases hs with h | h
    · subst h
      simp
    · have := Int.lt_floor_add_one ((src.height : Rat) * s)
      rw [not_lt]
      nlinarith

end Nx
