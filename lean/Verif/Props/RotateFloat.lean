import Verif.Model.RotateFloat
import Verif.Props.WarpFloat

/-!
# C159: rotation by 45 degrees in `float` arithmetic
-/

namespace Nx

/-- C159. The constants: the first is a `double` with the root of two within half of its last digit, the second a `float` whose square
is one half up to 2⁻²⁴. -/
theorem c159_constant : (2 * sqrtTwo * 4503599627370496 - 1) ^ 2 < 2 * (2 * 4503599627370496) ^ 2 ∧
    2 * (2 * 4503599627370496 : Rat) ^ 2 < (2 * sqrtTwo * 4503599627370496 + 1) ^ 2 ∧ IsFloatNum 53 (-1074) sqrtTwo ∧
    sqrt2Inv = 11863283 / 16777216 ∧ |2 * sqrt2Inv ^ 2 - 1| ≤ 1 / 16777216 := by
  have e : sqrt2Inv = 11863283 / 16777216 := by decide +kernel
  refine ⟨by norm_num [sqrtTwo], by norm_num [sqrtTwo], ⟨6369051672525773, -52, by norm_num, by norm_num, ?_⟩, e, ?_⟩
  · norm_num [sqrtTwo]
  · rw [e, abs_le]
    constructor <;> norm_num

theorem sqrt2Inv_val : sqrt2Inv = 11863283 / 16777216 := c159_constant.2.2.2.1

/-- The transformation with the rounded translation. -/
def rotateTFl (k : Rat) (dw dh sw sh : Nat) : Nat → Rat
  | 0 => sqrt2Inv
  | 1 => -(k * sqrt2Inv)
  | 3 => k * sqrt2Inv
  | 4 => sqrt2Inv
  | 6 => rotTx k dw dh sw
  | 7 => rotTy k dw dh sh
  | _ => 0

theorem f32_sign {k : Rat} (hk : k = 1 ∨ k = -1) {n : Nat} (hn : n ≤ 16777216) : f32 (k * f32 n) = k * n := by
  rw [f32_nat hn]
  rcases hk with e | e <;> rw [e]
  · rw [one_mul, f32_nat hn]
  · have : (-1 : Rat) * n = ((-n : Int) : Rat) := by push_cast; ring
    rw [this]
    exact f32_int (by rw [abs_neg, abs_of_nonneg (by omega)]; omega)

/-- C159. The rotation is the affine warp with black background and this transformation. -/
theorem c159_warp (cw : Bool) (dest src : GImage Byte) (hh : dest.height ≤ 16777216) (hsw : src.width * 2 ≤ 2147483647)
    (hsh : src.height * 2 ≤ 2147483647) :
    rotate45UcFl cw dest src = (do
      let d ← warpAffineFl .black dest.width dest.height dest.data dest.stride src.width src.height src.data src.stride
        (rotateTFl (if cw then 1 else -1) dest.width dest.height src.width src.height) (fun _ _ => 0)
      pure { dest with data := d }) := by
  unfold rotate45UcFl warpAffineFl
  rw [if_neg (show ¬ (src.width * 2 > 2147483647 ∨ src.height * 2 > 2147483647) by omega)]
  simp only
  congr 1
  have hk : (if cw = true then 1 else -1 : Rat) = 1 ∨ (if cw = true then 1 else -1 : Rat) = -1 := by cases cw <;> simp
  generalize (if cw = true then 1 else -1 : Rat) = k at hk
  have hc : f32 (k * sqrt2Inv) = k * sqrt2Inv := by
    rw [sqrt2Inv_val]
    rcases hk with e | e <;> rw [e] <;> decide +kernel
  refine forLoop_congr_body dest.height _ _ ?_ dest.height 0 dest.data (by omega)
  intro y d hy
  have s1 : f32 (f32 (f32 (k * f32 (y : Rat)) * sqrt2Inv) + rotTx k dest.width dest.height src.width) =
      rowStart y (rotateTFl k dest.width dest.height src.width src.height 3) (rotateTFl k dest.width dest.height src.width src.height 6) := by
    unfold rowStart
    rw [f32_sign hk (by omega), f32_nat (by omega)]
    simp only [rotateTFl]
    rw [show k * (y : Rat) * sqrt2Inv = y * (k * sqrt2Inv) by ring]
  have s2 : ∀ q : Rat, f32 (q - f32 (k * sqrt2Inv)) = posStep q (rotateTFl k dest.width dest.height src.width src.height 1) := by
    intro q
    unfold posStep
    rw [hc]
    simp only [rotateTFl]
    rw [sub_eq_add_neg]
  rw [s1]
  simp only [s2]
  rfl

/-! ## The translation -/

theorem c159_shift {k : Rat} (hk : k = 1 ∨ k = -1) {dw dh sw sh N : Nat} (hN : N ≤ 8388608) (h1 : dw ≤ N) (h2 : dh ≤ N) (h3 : sw ≤ N)
    (h4 : sh ≤ N) :
    |rotTx k dw dh sw - rotateT sqrt2Inv k dw dh sw sh 6| ≤ 5 * (N + 1) / 16777216 ∧
      |rotTy k dw dh sh - rotateT sqrt2Inv k dw dh sw sh 7| ≤ 5 * (N + 1) / 16777216 := by
  have d1 : (dw : Rat) ≤ N := by exact_mod_cast h1
  have d2 : (dh : Rat) ≤ N := by exact_mod_cast h2
  have d3 : (sw : Rat) ≤ N := by exact_mod_cast h3
  have d4 : (sh : Rat) ≤ N := by exact_mod_cast h4
  have p1 : (0 : Rat) ≤ dw := by positivity
  have p2 : (0 : Rat) ≤ dh := by positivity
  have p3 : (0 : Rat) ≤ sw := by positivity
  have p4 : (0 : Rat) ≤ sh := by positivity
  have n0 : (0 : Rat) ≤ N := by positivity
  have main : ∀ (s : Nat) (σ n : Rat), (s : Rat) ≤ N → (0 : Rat) ≤ s → |n| ≤ 2 * N → (σ = 1 ∨ σ = -1) →
      |f32 (f32 (s + σ * f32 (sqrt2Inv * n)) * (1 / 2)) - (s + σ * (sqrt2Inv * n)) * (1 / 2)| ≤ 5 * ((N : Rat) + 1) / 16777216 := by
    intro s σ n hs hs0 hn hσ
    have hcn : |sqrt2Inv * n| ≤ 2 * N := by
      rw [abs_mul, sqrt2Inv_val, abs_of_nonneg (by norm_num)]
      have := abs_nonneg n
      linarith
    have a1 := f32_near (sqrt2Inv * n)
    have a2 : |(s + σ * f32 (sqrt2Inv * n)) - (s + σ * (sqrt2Inv * n))| ≤ 2 * N / 16777216 + 1 / 281474976710656 := by
      rw [show (s + σ * f32 (sqrt2Inv * n)) - (s + σ * (sqrt2Inv * n)) = σ * (f32 (sqrt2Inv * n) - sqrt2Inv * n) by ring, abs_mul]
      have : |σ| = 1 := by rcases hσ with e | e <;> rw [e] <;> norm_num
      rw [this, one_mul]
      linarith
    have hB : |(s : Rat) + σ * (sqrt2Inv * n)| ≤ 3 * N := by
      have := abs_le.mp hcn
      rw [abs_le]
      rcases hσ with e | e <;> rw [e] <;> constructor <;> linarith [this.1, this.2]
    have a3 := f32_shift a2 hB
    have a4 : |f32 (s + σ * f32 (sqrt2Inv * n)) * (1 / 2) - (s + σ * (sqrt2Inv * n)) * (1 / 2)| ≤
        (2 * N / 16777216 + 1 / 281474976710656 + (3 * N + (2 * N / 16777216 + 1 / 281474976710656)) / 16777216 + 1 / 281474976710656) * (1 / 2) := by
      rw [← sub_mul, abs_mul, abs_of_nonneg (show (0 : Rat) ≤ 1 / 2 by norm_num)]
      exact mul_le_mul_of_nonneg_right a3 (by norm_num)
    have hB2 : |((s : Rat) + σ * (sqrt2Inv * n)) * (1 / 2)| ≤ 3 * N * (1 / 2) := by
      rw [abs_mul, abs_of_nonneg (show (0 : Rat) ≤ 1 / 2 by norm_num)]
      exact mul_le_mul_of_nonneg_right hB (by norm_num)
    have a5 := f32_shift a4 hB2
    linarith
  have ints : ∀ i : Int, |i| ≤ 16777216 → f32 (i : Rat) = i := fun i hi => f32_int hi
  have hn1 : f32 ((dw : Rat) + k * dh) = dw + k * dh := by
    rcases hk with e | e <;> rw [e]
    · have := ints ((dw : Int) + dh) (by rw [abs_le]; omega)
      push_cast at this
      rw [one_mul, this]
    · have := ints ((dw : Int) - dh) (by rw [abs_le]; omega)
      push_cast at this
      rw [show (dw : Rat) + -1 * dh = dw - dh by ring, this]
  have hn2 : f32 (k * (dw : Rat) - dh) = k * dw - dh := by
    rcases hk with e | e <;> rw [e]
    · have := ints ((dw : Int) - dh) (by rw [abs_le]; omega)
      push_cast at this
      rw [one_mul, this]
    · have := ints (-(dw : Int) - dh) (by rw [abs_le]; omega)
      push_cast at this
      rw [show (-1 : Rat) * dw - dh = -dw - dh by ring, this]
  constructor
  · have m := main sw (-1) (dw + k * dh) d3 p3 (by
      rw [abs_le]
      rcases hk with e | e <;> rw [e] <;> constructor <;> linarith) (Or.inr rfl)
    unfold rotTx
    rw [f32_sign hk (by omega), f32_nat (show sw ≤ 16777216 by omega), f32_nat (show dw ≤ 16777216 by omega), hn1]
    simp only [rotateT]
    rw [show (sw : Rat) - f32 (sqrt2Inv * (dw + k * dh)) = sw + -1 * f32 (sqrt2Inv * (dw + k * dh)) by ring,
      show ((sw : Rat) - sqrt2Inv * (dw + k * dh)) = sw + -1 * (sqrt2Inv * (dw + k * dh)) by ring]
    exact m
  · have m := main sh 1 (k * dw - dh) d4 p4 (by
      rw [abs_le]
      rcases hk with e | e <;> rw [e] <;> constructor <;> linarith) (Or.inl rfl)
    unfold rotTy
    rw [f32_sign hk (by omega), f32_nat (show sh ≤ 16777216 by omega), f32_nat (show dh ≤ 16777216 by omega), hn2]
    simp only [rotateT]
    rw [one_mul, one_mul] at m
    exact m

/-! ## Pixels -/

/-- C159. For images with sides up to `N`, the position of every pixel is that of the exact rotation about the centres with the constant
`SQRT2_INV`, up to `(N + 1) (N + 2) / 1000000`. -/
theorem c159_position {k : Rat} (hk : k = 1 ∨ k = -1) {dw dh sw sh N x y : Nat} (hN : N ≤ 500000) (h1 : dw ≤ N) (h2 : dh ≤ N) (h3 : sw ≤ N)
    (h4 : sh ≤ N) (hx : x < dw) (hy : y < dh) {t τ : Nat → Rat} (ht : t = rotateTFl k dw dh sw sh) (hτ : τ = rotateT sqrt2Inv k dw dh sw sh) :
    |posAfter (rowStart y (t 3) (t 6)) (t 0) x - (y * τ 3 + τ 6 + x * τ 0)| ≤ ((N : Rat) + 1) * (N + 2) / 1000000 ∧
      |posAfter (rowStart y (t 4) (t 7)) (t 1) x - (y * τ 4 + τ 7 + x * τ 1)| ≤ ((N : Rat) + 1) * (N + 2) / 1000000 := by
  have sh' := c159_shift hk (by omega : N ≤ 8388608) h1 h2 h3 h4
  have d1 : (dw : Rat) ≤ N := by exact_mod_cast h1
  have d2 : (dh : Rat) ≤ N := by exact_mod_cast h2
  have d3 : (sw : Rat) ≤ N := by exact_mod_cast h3
  have d4 : (sh : Rat) ≤ N := by exact_mod_cast h4
  have p1 : (0 : Rat) ≤ dw := by positivity
  have p2 : (0 : Rat) ≤ dh := by positivity
  have p3 : (0 : Rat) ≤ sw := by positivity
  have p4 : (0 : Rat) ≤ sh := by positivity
  have n0 : (0 : Rat) ≤ N := by positivity
  have nN : (N : Rat) ≤ 500000 := by exact_mod_cast hN
  have hy' : (y : Rat) ≤ N := by exact_mod_cast (by omega : y ≤ N)
  have hx' : (x : Rat) ≤ N := by exact_mod_cast (by omega : x ≤ N)
  have y0 : (0 : Rat) ≤ y := by positivity
  have x0 : (0 : Rat) ≤ x := by positivity
  have one : ∀ (a b b' c : Rat), |a| ≤ 3 / 4 → |c| ≤ 3 / 4 → |b'| ≤ 2 * N → |b - b'| ≤ 5 * (N + 1) / 16777216 →
      |posAfter (rowStart y a b) c x - (y * a + b' + x * c)| ≤ ((N : Rat) + 1) * (N + 2) / 1000000 := by
    intro a b b' c ha hc hb' hb
    have ya : |y * a| ≤ 3 / 4 * N := by
      rw [abs_mul, abs_of_nonneg y0]
      have := mul_le_mul hy' ha (abs_nonneg _) n0
      linarith
    have kc : ∀ k ≤ x, |(k : Rat) * c| ≤ 3 / 4 * N := by
      intro k hk
      have : (k : Rat) ≤ x := by exact_mod_cast hk
      rw [abs_mul, abs_of_nonneg (by positivity)]
      have := mul_le_mul (this.trans hx') hc (abs_nonneg _) n0
      linarith
    have bb : |b| ≤ 2 * N + 1 := by
      have := abs_le.mp hb
      have t := abs_le.mp hb'
      rw [abs_le]
      constructor <;> linarith [this.1, this.2, t.1, t.2]
    have t := c158_total (a := a) (b := b) (c := c) (B := 4 * N + 1) (y := y) (n := x) (by omega) (by omega) (by linarith) (by linarith) (by
      intro k hk
      have e1 := abs_le.mp (kc k hk)
      have e2 := abs_le.mp ya
      have e3 := abs_le.mp bb
      rw [abs_le]
      constructor <;> linarith [e1.1, e1.2, e2.1, e2.2, e3.1, e3.2])
    have t2 : ((x : Rat) + 2) * (4 * N + 1 + 2) ≤ (N + 2) * (4 * (N + 1)) := mul_le_mul (by linarith) (by linarith) (by linarith) (by linarith)
    have t3 : (0 : Rat) ≤ (N + 1) * N := by positivity
    have e : posAfter (rowStart y a b) c x - (y * a + b' + x * c) = (posAfter (rowStart y a b) c x - (y * a + b + x * c)) + (b - b') := by ring
    rw [e]
    refine (abs_add_le _ _).trans ?_
    nlinarith
  have hc : |sqrt2Inv| ≤ 3 / 4 := by rw [sqrt2Inv_val, abs_of_nonneg (by norm_num)]; norm_num
  have hkc : |k * sqrt2Inv| ≤ 3 / 4 := by
    rw [abs_mul]
    rcases hk with e | e <;> rw [e] <;> norm_num <;> exact hc
  have big : ∀ n s : Rat, |n| ≤ 2 * N → 0 ≤ s → s ≤ N → |(s - sqrt2Inv * n) * (1 / 2)| ≤ 2 * N := by
    intro n s hn s0 sN
    have h5 : |sqrt2Inv * n| ≤ 3 / 4 * (2 * N) := by
      rw [abs_mul]
      exact mul_le_mul hc hn (abs_nonneg _) (by norm_num)
    have h6 := abs_le.mp h5
    rw [abs_le]
    constructor <;> linarith [h6.1, h6.2]
  subst ht hτ
  constructor
  · refine one _ _ _ _ hkc hc ?_ sh'.1
    refine big (dw + k * dh) sw ?_ p3 d3
    rw [abs_le]
    rcases hk with e | e <;> rw [e] <;> constructor <;> linarith
  · refine one _ _ _ _ hc (by simp only [rotateTFl, abs_neg]; exact hkc) ?_ sh'.2
    have := big (-(k * dw - dh)) sh (by
      rw [abs_neg, abs_le]
      rcases hk with e | e <;> rw [e] <;> constructor <;> linarith) p4 d4
    simp only [rotateT]
    rw [show (sh : Rat) + sqrt2Inv * (k * dw - dh) = sh - sqrt2Inv * -(k * dw - dh) by ring]
    exact this

/-- C159. A pixel of the rotated image against the exact rotation and interpolation, where the position is inside the source by more
than its error. -/
theorem c159_pixel {src : GImage Byte} {f : Nat → Nat → Byte} {k : Rat} (hk : k = 1 ∨ k = -1) {dw dh sw sh N x y : Nat}
    (hs : src.Shows sw sh f) (hN : N ≤ 500000) (h1 : dw ≤ N) (h2 : dh ≤ N) (h3 : sw ≤ N) (h4 : sh ≤ N) (hx : x < dw) (hy : y < dh)
    {t τ : Nat → Rat} {X Y e : Rat} (ht : t = rotateTFl k dw dh sw sh) (hτ : τ = rotateT sqrt2Inv k dw dh sw sh)
    (hX : X = y * τ 3 + τ 6 + x * τ 0) (hY : Y = y * τ 4 + τ 7 + x * τ 1) (he : e = ((N : Rat) + 1) * (N + 2) / 1000000)
    (hX0 : e ≤ X) (hX1 : X + e < (sw : Rat) - 1) (hY0 : e ≤ Y) (hY1 : Y + e < (sh : Rat) - 1) :
    ∃ c, warpPixelFl .black sw sh src.data src.stride (posAfter (rowStart y (t 3) (t 6)) (t 0) x)
        (posAfter (rowStart y (t 4) (t 7)) (t 1) x) 0 = .ok c ∧
      byteVal c ≤ bilinearAt (continued f Int.toNat Int.toNat) X Y + 510 * e + 1 / 2000 ∧
      bilinearAt (continued f Int.toNat Int.toNat) X Y < byteVal c + 1 + 510 * e + 1 / 2000 := by
  obtain ⟨px, py⟩ := c159_position hk hN h1 h2 h3 h4 hx hy ht hτ
  rw [← hX, ← he] at px
  rw [← hY, ← he] at py
  have px' := abs_le.mp px
  have py' := abs_le.mp py
  obtain ⟨c, g1, g2, g3⟩ := c158_pixel (mode := .black) (s := 0) hs (by omega) (by omega)
    (xp := posAfter (rowStart y (t 3) (t 6)) (t 0) x) (yp := posAfter (rowStart y (t 4) (t 7)) (t 1) x)
    (by linarith [px'.1]) (by linarith [px'.2]) (by linarith [py'.1]) (by linarith [py'.2])
  have hl := bilinearAt_lip (continued_range (f := f) Int.toNat Int.toNat) X Y
    (posAfter (rowStart y (t 3) (t 6)) (t 0) x) (posAfter (rowStart y (t 4) (t 7)) (t 1) x)
  have hl' := abs_le.mp (hl.trans (show _ ≤ 510 * e by linarith))
  exact ⟨c, g1, by linarith [hl'.2], by linarith [hl'.1]⟩

/-- The pixel in the centre of images of 100 by 100 pixels meets the hypotheses: its position is the centre of the source. -/
example (τ : Nat → Rat) (hτ : τ = rotateT sqrt2Inv 1 100 100 100 100) (X Y e : Rat) (hX : X = 50 * τ 3 + τ 6 + 50 * τ 0)
    (hY : Y = 50 * τ 4 + τ 7 + 50 * τ 1) (he : e = (100 + 1) * (100 + 2) / 1000000) :
    X = 50 ∧ Y = 50 ∧ e ≤ X ∧ X + e < 100 - 1 ∧ e ≤ Y ∧ Y + e < 100 - 1 := by
  have h1 : X = 50 := by rw [hX, hτ]; simp only [rotateT]; push_cast; ring
  have h2 : Y = 50 := by rw [hY, hτ]; simp only [rotateT]; push_cast; ring
  rw [h1, h2, he]
  norm_num

/-- A rotation that leaves the source at some pixels, which become black. -/
example : rotate45UcFl true ⟨4, 3, 4, [7, 7, 7, 7, 7, 7, 7, 7, 7, 7, 7, 7]⟩ ⟨3, 3, 3, [10, 20, 30, 40, 50, 60, 70, 80, 90]⟩ =
    .ok ⟨4, 3, 4, [55, 41, 27, 13, 0, 69, 55, 41, 0, 0, 84, 0]⟩ := by decide +kernel

end Nx
