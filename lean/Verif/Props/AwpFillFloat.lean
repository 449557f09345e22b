import Verif.Model.AwpFillFloat
import Verif.Props.AwpFloat

/-!
# C162: filling the background in `float` arithmetic
-/

namespace Nx

variable {src : GImage Byte} {w h : Nat} {f : Nat → Nat → Byte} {xp yp s : Rat}

/-- C162. Without repetition a pixel is the one of exact arithmetic at the rounded position. -/
theorem c162_same {mode : AwpMode} (hm : mode ≠ .repeat) (color : Byte) (img : GImage Byte) (xp yp s : Rat) :
    awpFillPixelFl mode color img xp yp s = awpFillPixel mode color img xp yp s := by
  cases mode with
  | fixed => rfl
  | noise => rfl
  | «repeat» => exact absurd rfl hm

theorem mul_close_wide {p p' q q' e1 e2 : Rat} (hp : |p| ≤ 2) (h1 : |p' - p| ≤ e1) (h2 : |q' - q| ≤ e2) (hq : |q'| ≤ 256) :
    |p' * q' - p * q| ≤ 256 * e1 + 2 * e2 := by
  have e : p' * q' - p * q = (p' - p) * q' + p * (q' - q) := by ring
  rw [e]
  refine (abs_add_le _ _).trans ?_
  rw [abs_mul, abs_mul]
  have a := mul_le_mul h1 hq (abs_nonneg _) ((abs_nonneg _).trans h1)
  have b : |p| * |q' - q| ≤ 2 * e2 := mul_le_mul hp h2 (abs_nonneg _) (by norm_num)
  linarith

/-- One linear interpolation with a fraction of either sign. -/
theorem mix_near_wide {t t' r' a b a' b' e : Rat} (h1 : |t| ≤ 1) (ht : |t' - t| ≤ 1 / 16000000) (hr : |r' - (1 - t)| ≤ 1 / 5400000)
    (ha : 0 ≤ a ∧ a ≤ 255) (hb : 0 ≤ b ∧ b ≤ 255) (hm : 0 ≤ (1 - t) * a + t * b ∧ (1 - t) * a + t * b ≤ 255) (ha' : |a' - a| ≤ e)
    (hb' : |b' - b| ≤ e) (he : e ≤ 1 / 5000) : |f32 (f32 (r' * a') + f32 (t' * b')) - ((1 - t) * a + t * b)| ≤ 4 * e + 1 / 6500 := by
  have e0 : 0 ≤ e := (abs_nonneg _).trans ha'
  have bound : ∀ {p p'}, 0 ≤ p ∧ p ≤ 255 → |p' - p| ≤ e → |p'| ≤ 256 := by
    intro p p' hp hp'
    rw [abs_le] at hp' ⊢
    constructor <;> linarith [hp.1, hp.2]
  have t1 := abs_le.mp h1
  have r2 : |1 - t| ≤ 2 := by
    rw [abs_le]
    constructor <;> linarith [t1.1, t1.2]
  have part : ∀ {p q : Rat}, |p| ≤ 2 → 0 ≤ q ∧ q ≤ 255 → |p * q| ≤ 510 := by
    intro p q hp hq
    rw [abs_mul, abs_of_nonneg hq.1]
    have := mul_le_mul hp hq.2 hq.1 (by norm_num)
    linarith
  have p1 := mul_close_wide r2 hr ha' (bound ha ha')
  have p2 := mul_close_wide (show |t| ≤ 2 by linarith) ht hb' (bound hb hb')
  have q1 := f32_shift p1 (part r2 ha)
  have q2 := f32_shift p2 (part (by linarith) hb)
  have q3 : |f32 (r' * a') + f32 (t' * b') - ((1 - t) * a + t * b)| ≤ 4 * e + 1 / 7500 := by
    rw [abs_le] at q1 q2 ⊢
    constructor <;> linarith [q1.1, q1.2, q2.1, q2.2]
  have q4 := f32_shift q3 (B := 255) (by rw [abs_of_nonneg hm.1]; exact hm.2)
  linarith

/-- The interpolation with rounding is close to the exact one where fractions are negative, too, if it does not extrapolate. -/
theorem bilinearFl_wide {u v a b c d : Rat} (hu : |u| ≤ 1) (hv : |v| ≤ 1) (ha : 0 ≤ a ∧ a ≤ 255) (hb : 0 ≤ b ∧ b ≤ 255)
    (hc : 0 ≤ c ∧ c ≤ 255) (hd : 0 ≤ d ∧ d ≤ 255) (m1 : 0 ≤ (1 - u) * a + u * b ∧ (1 - u) * a + u * b ≤ 255)
    (m2 : 0 ≤ (1 - u) * c + u * d ∧ (1 - u) * c + u * d ≤ 255) (m3 : 0 ≤ bilinear u v a b c d ∧ bilinear u v a b c d ≤ 255) :
    |bilinearFl (f32 u) (f32 v) a b c d - bilinear u v a b c d| ≤ 1 / 1000 := by
  have near : ∀ {t : Rat}, |t| ≤ 1 → |f32 t - t| ≤ 1 / 16000000 ∧ |f32 (1 - f32 t) - (1 - t)| ≤ 1 / 5400000 := by
    intro t h1
    have a1 := f32_near t
    have a2 : |f32 t - t| ≤ 1 / 16000000 := by linarith
    refine ⟨a2, ?_⟩
    have a3 : |1 - f32 t - (1 - t)| ≤ 1 / 16000000 := by
      rw [abs_le] at a2 ⊢
      constructor <;> linarith [a2.1, a2.2]
    have t1 := abs_le.mp h1
    have a4 := f32_shift a3 (B := 2) (by rw [abs_le]; constructor <;> linarith [t1.1, t1.2])
    linarith
  obtain ⟨u1, u2⟩ := near hu
  obtain ⟨v1, v2⟩ := near hv
  have z : ∀ p : Rat, |p - p| ≤ 0 := fun p => by rw [sub_self, abs_zero]
  have r1 := mix_near_wide hu u1 u2 ha hb m1 (z a) (z b) (by norm_num)
  have r2 := mix_near_wide hu u1 u2 hc hd m2 (z c) (z d) (by norm_num)
  have r3 := mix_near_wide hv v1 v2 m1 m2 m3 r1 r2 (by norm_num)
  unfold bilinearFl bilinear
  exact r3.trans (by norm_num)

theorem clampByte_near {q r : Rat} (h0 : 0 ≤ r) (h1 : r ≤ 255) (hq : |q - r| ≤ 1 / 1000) :
    ∃ I, truncInt q = .ok I ∧ byteVal (clampByte I) ≤ r + 1 / 1000 ∧ r < byteVal (clampByte I) + 1 + 1 / 1000 := by
  have a := abs_le.mp hq
  have tr : ∀ {n : Int}, ratTrunc q = n → -1 ≤ n → n ≤ 256 → truncInt q = .ok n := by
    intro n e l u
    unfold truncInt
    rw [e]
    exact if_pos (by constructor <;> omega)
  by_cases hn : q < 0
  · have e : ratTrunc q = 0 := by
      have : ⌊-q⌋ = 0 := by
        rw [Int.floor_eq_iff]
        push_cast
        constructor <;> linarith [a.1]
      rw [ratTrunc_neg hn, this]
      rfl
    refine ⟨0, tr e (by norm_num) (by norm_num), ?_⟩
    have e2 : byteVal (clampByte 0) = 0 := by decide +kernel
    rw [e2]
    constructor <;> linarith [a.1]
  · by_cases hb : q ≤ 255
    · obtain ⟨I, eI, i1, i2⟩ := clampByte_floor (not_lt.mp hn) hb
      exact ⟨I, eI, by linarith [a.2], by linarith [a.1]⟩
    · have e : ratTrunc q = 255 := by
        rw [ratTrunc_nonneg (not_lt.mp hn), Int.floor_eq_iff]
        push_cast
        constructor <;> linarith [a.2]
      refine ⟨255, tr e (by norm_num) (by norm_num), ?_⟩
      have e2 : byteVal (clampByte 255) = 255 := by decide +kernel
      rw [e2]
      constructor <;> linarith [a.2]

/-- C162. With repetition the pixels outside of the interior are replaced by the interpolation at the position that is moved to the
border, up to 1/1000 and truncation. Nothing is read outside of the image. -/
theorem c162_repeat (hs : src.Shows w h f) (hw : 0 < w) (hh : 0 < h) (hx : |xp| ≤ 16777216) (hy : |yp| ≤ 16777216) (color : Byte) :
    (Interior w xp ∧ Interior h yp → awpFillPixelFl .repeat color src xp yp s = .ok none) ∧
    (¬ (Interior w xp ∧ Interior h yp) → ∃ c, awpFillPixelFl .repeat color src xp yp s = .ok (some c) ∧
      byteVal c ≤ bilinearAt (continued f Int.toNat Int.toNat) (edgeCoord w xp) (edgeCoord h yp) + 1 / 1000 ∧
      bilinearAt (continued f Int.toNat Int.toNat) (edgeCoord w xp) (edgeCoord h yp) < byteVal c + 1 + 1 / 1000) := by
  have ax := abs_le.mp hx
  have ay := abs_le.mp hy
  obtain ⟨ex, nx⟩ := truncInt_fits (show IntRange xp from ⟨by linarith [ax.1], by linarith [ax.2]⟩)
  obtain ⟨ey, ny⟩ := truncInt_fits (show IntRange yp from ⟨by linarith [ay.1], by linarith [ay.2]⟩)
  obtain ⟨a, a', ga, eA, a0, a1, a2, a3, gA, fA, cA⟩ := awpIndex_spec (n := w) (q := xp) hw
  obtain ⟨b, b', gb, eB, b0, b1, b2, b3, gB, fB, cB⟩ := awpIndex_spec (n := h) (q := yp) hh
  unfold awpFillPixelFl
  rw [ex, ey]
  simp only [Res.ok_bind]
  rw [if_neg (by omega), hs.width_eq, hs.height_eq, eA, eB]
  simp only
  constructor
  · intro hi
    have h1 : ga = false := by
      by_contra hne
      exact gA.mp (by simpa using hne) hi.1
    have h2 : gb = false := by
      by_contra hne
      exact gB.mp (by simpa using hne) hi.2
    rw [h1, h2]
    rfl
  · intro hi
    have hg : (ga || gb) = true := by
      by_cases h1 : Interior w xp
      · have h2 : ¬ Interior h yp := fun h2 => hi ⟨h1, h2⟩
        rw [gB.mpr h2, Bool.or_true]
      · rw [gA.mpr h1, Bool.true_or]
    rw [if_pos hg, readFour_spec hs ⟨a0, a1⟩ ⟨a2, a3⟩ ⟨b0, b1⟩ ⟨b2, b3⟩]
    simp only [Res.ok_bind]
    have hr := bilinearAt_range (continued_range (f := f) Int.toNat Int.toNat) (edgeCoord w xp) (edgeCoord h yp)
    have key : bilinear (xp - ratTrunc xp) (yp - ratTrunc yp) ((f a.toNat b.toNat).toNat : Rat) ((f a'.toNat b.toNat).toNat : Rat)
        ((f a.toNat b'.toNat).toNat : Rat) ((f a'.toNat b'.toNat).toNat : Rat) =
        bilinearAt (continued f Int.toNat Int.toNat) (edgeCoord w xp) (edgeCoord h yp) := by
      unfold bilinearAt continued byteVal
      rw [← fA, ← fB] at *
      unfold bilinear
      rcases cA with ⟨uA, vA⟩ | ⟨vA, uA⟩ <;> rcases cB with ⟨uB, vB⟩ | ⟨vB, uB⟩
      · rw [uA, uB, vA, vB]
      · rw [uA, vA, uB, ← vB]
        ring
      · rw [uB, vB, uA, ← vA]
        ring
      · rw [uA, uB, ← vA, ← vB]
        ring
    have hb : ∀ b : Byte, 0 ≤ (b.toNat : Rat) ∧ (b.toNat : Rat) ≤ 255 := fun b => ⟨byteVal_nonneg b, byteVal_le b⟩
    have row : ∀ k : Nat, 0 ≤ (1 - (xp - ratTrunc xp)) * ((f a.toNat k).toNat : Rat) + (xp - ratTrunc xp) * ((f a'.toNat k).toNat : Rat) ∧
        (1 - (xp - ratTrunc xp)) * ((f a.toNat k).toNat : Rat) + (xp - ratTrunc xp) * ((f a'.toNat k).toNat : Rat) ≤ 255 := by
      intro k
      rcases cA with ⟨uA, _⟩ | ⟨vA, _⟩
      · rw [uA]
        exact mix_range (Int.fract_nonneg _) (Int.fract_lt_one _).le (hb _) (hb _)
      · rw [← vA]
        have e : (1 - (xp - ratTrunc xp)) * ((f a.toNat k).toNat : Rat) + (xp - ratTrunc xp) * ((f a.toNat k).toNat : Rat) =
            ((f a.toNat k).toNat : Rat) := by ring
        rw [e]
        exact hb _
    have hn := bilinearFl_wide (trunc_frac xp) (trunc_frac yp) (hb (f a.toNat b.toNat)) (hb (f a'.toNat b.toNat)) (hb (f a.toNat b'.toNat))
      (hb (f a'.toNat b'.toNat)) (row _) (row _) (by rw [key]; exact hr)
    rw [key] at hn
    obtain ⟨I, eI, hI⟩ := clampByte_near hr.1 hr.2 hn
    have small : ∀ {q : Rat}, |q| ≤ 16777216 → f32 (ratTrunc q) = ratTrunc q := by
      intro q hq
      have m1 := ratTrunc_mono (abs_le.mp hq).1
      have m2 := ratTrunc_mono (abs_le.mp hq).2
      have e1 : ratTrunc (-16777216) = -16777216 := by decide +kernel
      have e2 : ratTrunc 16777216 = 16777216 := by decide +kernel
      rw [e1] at m1
      rw [e2] at m2
      exact f32_int (abs_le.mpr ⟨m1, m2⟩)
    rw [small hx, small hy, eI]
    exact ⟨clampByte I, rfl, hI⟩

example : awpFillPixelFl .repeat 0 ⟨4, 4, 4, [1, 2, 3, 4, 1, 2, 3, 4, 1, 2, 3, 4, 1, 2, 3, 4]⟩ 2 1 0 = .ok (some 4) := by decide +kernel

/-- C162. The positions do not depend on which pixels were replaced. -/
theorem c162_loops (mode : AwpMode) (color : Byte) (img dest : GImage Byte) (t : Aff Rat) (noise : Nat → Nat → Rat) :
    awpFillFl mode color img dest t noise = (do
      let d ← forLoop dest.height (fun y d => forLoop dest.width (fun x d => do
        let b ← awpFillPixelFl mode color img (posAfter (rowStart y t.t2 t.t4) t.t0 x) (posAfter (rowStart y t.t3 t.t5) t.t1 x) (noise x y)
        putSome d (y * dest.stride + x) b) 0 d) 0 dest.data
      pure { dest with data := d }) := by
  unfold awpFillFl
  congr 1
  refine forLoop_congr_body dest.height _ _ ?_ dest.height 0 dest.data (by omega)
  intro y d hy
  have := forLoop_carry dest.width (fun x d => do
    let b ← awpFillPixelFl mode color img (posAfter (rowStart y t.t2 t.t4) t.t0 x) (posAfter (rowStart y t.t3 t.t5) t.t1 x) (noise x y)
    putSome d (y * dest.stride + x) b) (fun x (s : List Byte × Rat × Rat) => do
      let b ← awpFillPixelFl mode color img s.2.1 s.2.2 (noise x y)
      let d ← putSome s.1 (y * dest.stride + x) b
      pure (d, posStep s.2.1 t.t0, posStep s.2.2 t.t1))
    (fun x => (posAfter (rowStart y t.t2 t.t4) t.t0 x, posAfter (rowStart y t.t3 t.t5) t.t1 x)) (by
        intro x d hx
        simp only [posAfter]
        cases awpFillPixelFl mode color img (posAfter (rowStart y t.t2 t.t4) t.t0 x) (posAfter (rowStart y t.t3 t.t5) t.t1 x)
          (noise x y) <;> rfl)
    dest.width 0 d (by omega)
  simp only [posAfter] at this
  rw [this]
  cases forLoop dest.width (fun x d => do
    let b ← awpFillPixelFl mode color img (posAfter (rowStart y t.t2 t.t4) t.t0 x) (posAfter (rowStart y t.t3 t.t5) t.t1 x) (noise x y)
    putSome d (y * dest.stride + x) b) 0 d <;> rfl

/-- C162. A fixed background in a whole image: pixels from the interior by more than the error `e` of the position are kept, and those
from outside of it by more than `e` get the colour. -/
theorem c162_fixed {img dest : GImage Byte} {t : Aff Rat} {color : Byte} {noise : Nat → Nat → Rat} {dw dh : Nat} {g : Nat → Nat → Byte}
    {B e : Rat} (hd : dest.Wf) (h0 : dest.Shows dw dh g) (hdh : dh ≤ 16777216) (hdw : dw ≤ 1048576) (hB1 : B ≤ 2097152)
    (ha : ∀ y < dh, |y * t.t2| ≤ B ∧ |y * t.t3| ≤ B)
    (hB : ∀ y < dh, ∀ x < dw, |y * t.t2 + t.t4 + x * t.t0| ≤ B ∧ |y * t.t3 + t.t5 + x * t.t1| ≤ B)
    (he : (dw + 2) * (B + 2) / 8388608 ≤ e) :
    ∃ d S, awpFillFl .fixed color img dest t noise = .ok d ∧ d.Wf ∧ d.Shows dw dh S ∧ ∀ x y : Nat, x < dw → y < dh →
      ((∀ p q : Rat, |p - (y * t.t2 + t.t4 + x * t.t0)| ≤ e → |q - (y * t.t3 + t.t5 + x * t.t1)| ≤ e →
        Interior img.width p ∧ Interior img.height q) → S x y = g x y) ∧
      ((∀ p q : Rat, |p - (y * t.t2 + t.t4 + x * t.t0)| ≤ e → |q - (y * t.t3 + t.t5 + x * t.t1)| ≤ e →
        ¬ (Interior img.width p ∧ Interior img.height q)) → S x y = color) := by
  have pos : ∀ x y : Nat, x < dw → y < dh →
      |posAfter (rowStart y t.t2 t.t4) t.t0 x - (y * t.t2 + t.t4 + x * t.t0)| ≤ e ∧
      |posAfter (rowStart y t.t3 t.t5) t.t1 x - (y * t.t3 + t.t5 + x * t.t1)| ≤ e ∧
      IntRange (posAfter (rowStart y t.t2 t.t4) t.t0 x) ∧ IntRange (posAfter (rowStart y t.t3 t.t5) t.t1 x) := by
    intro x y hx hy
    have b0 : 0 ≤ B := (abs_nonneg _).trans (ha y hy).1
    have hx' : (x : Rat) ≤ dw := by exact_mod_cast hx.le
    have hx2 : (x : Rat) ≤ 1048576 := by exact_mod_cast (by omega : x ≤ 1048576)
    have m1 := mul_le_mul_of_nonneg_right (show (x : Rat) + 2 ≤ dw + 2 by linarith) (show 0 ≤ B + 2 by linarith)
    have m2 := mul_le_mul (show (x : Rat) + 2 ≤ 1048578 by linarith) (show B + 2 ≤ 2097154 by linarith) (by linarith) (by norm_num)
    have px := c158_total (n := x) (c := t.t0) (by omega : y ≤ 16777216) (by omega) hB1 (ha y hy).1 (fun k hk => (hB y hy k (by omega)).1)
    have py := c158_total (n := x) (c := t.t1) (by omega : y ≤ 16777216) (by omega) hB1 (ha y hy).2 (fun k hk => (hB y hy k (by omega)).2)
    have bx := abs_le.mp (hB y hy x hx).1
    have by' := abs_le.mp (hB y hy x hx).2
    have px' := abs_le.mp px
    have py' := abs_le.mp py
    refine ⟨by linarith, by linarith, ⟨?_, ?_⟩, ⟨?_, ?_⟩⟩
    · linarith [px'.1, bx.1]
    · linarith [px'.2, bx.2]
    · linarith [py'.1, by'.1]
    · linarith [py'.2, by'.2]
  classical
  let o : Nat → Nat → Option Byte := fun x y =>
    if Interior img.width (posAfter (rowStart y t.t2 t.t4) t.t0 x) ∧ Interior img.height (posAfter (rowStart y t.t3 t.t5) t.t1 x) then none
    else some color
  have e1 := h0.width_eq
  have e2 := h0.height_eq
  subst e1 e2
  obtain ⟨d, ed, hl, hv⟩ := fill_keep (st := dest.stride) (H := dest.height) (w := dest.width) (g := g) (o := o) (d0 := dest.data)
    (body := fun y x d => do
      let b ← awpFillPixelFl .fixed color img (posAfter (rowStart y t.t2 t.t4) t.t0 x) (posAfter (rowStart y t.t3 t.t5) t.t1 x) (noise x y)
      putSome d (y * dest.stride + x) b) hd.stride_ge hd.length_eq h0.pixel_eq (by
      intro y x d hy hx _
      obtain ⟨_, _, rx, ry⟩ := pos x y hx hy
      have hp := c92_fixed (s := noise x y) rx ry color img
      rw [c162_same (by simp)]
      by_cases hi : Interior img.width (posAfter (rowStart y t.t2 t.t4) t.t0 x) ∧ Interior img.height (posAfter (rowStart y t.t3 t.t5) t.t1 x)
      · rw [hp.1 hi, show o x y = none from if_pos hi]
        rfl
      · rw [hp.2 hi, show o x y = some color from if_neg hi]
        rfl)
  refine ⟨{ dest with data := d }, fun x y => (o x y).getD (g x y), ?_, ⟨hd.stride_ge, hl⟩, ⟨rfl, rfl, hv⟩, fun x y hx hy => ?_⟩
  · rw [c162_loops, ed]
    rfl
  · obtain ⟨px, py, _, _⟩ := pos x y hx hy
    constructor
    · intro hi
      show (o x y).getD (g x y) = _
      rw [show o x y = none from if_pos (hi _ _ px py)]
      rfl
    · intro hi
      show (o x y).getD (g x y) = _
      rw [show o x y = some color from if_neg (hi _ _ px py)]
      rfl

/-- Of a row of five pixels the three from the interior are kept. -/
example : awpFillFl .fixed 9 ⟨6, 4, 6, List.replicate 24 1⟩ ⟨5, 1, 5, [1, 2, 3, 4, 5]⟩ ⟨1, 0, 0, 1, 1 / 2, 3 / 2⟩ (fun _ _ => 0) =
    .ok ⟨5, 1, 5, [9, 2, 3, 4, 9]⟩ := by decide +kernel

/-- C162. Filling is defined for all kinds of background and all transformations whose positions stay within 2²¹. -/
theorem c162_defined {mode : AwpMode} {dest : GImage Byte} {t : Aff Rat} {color : Byte} {noise : Nat → Nat → Rat} {dw dh : Nat}
    {g : Nat → Nat → Byte} (hs : src.Shows w h f) (hw : 0 < w) (hh : 0 < h) (hn : ∀ x y, 0 ≤ noise x y ∧ noise x y ≤ 1) (hd : dest.Wf)
    (h0 : dest.Shows dw dh g) (hdh : dh ≤ 16777216) (hdw : dw ≤ 1048576) (ha : ∀ y < dh, |y * t.t2| ≤ 2097152 ∧ |y * t.t3| ≤ 2097152)
    (hB : ∀ y < dh, ∀ x < dw, |y * t.t2 + t.t4 + x * t.t0| ≤ 2097152 ∧ |y * t.t3 + t.t5 + x * t.t1| ≤ 2097152) :
    ∃ d S, awpFillFl mode color src dest t noise = .ok d ∧ d.Wf ∧ d.Shows dw dh S ∧ ∀ x y : Nat, x < dw → y < dh →
      Interior w (posAfter (rowStart y t.t2 t.t4) t.t0 x) → Interior h (posAfter (rowStart y t.t3 t.t5) t.t1 x) → S x y = g x y := by
  have hex : ∀ x y : Nat, ∃ o : Option Byte, x < dw → y < dh →
      awpFillPixelFl mode color src (posAfter (rowStart y t.t2 t.t4) t.t0 x) (posAfter (rowStart y t.t3 t.t5) t.t1 x) (noise x y) = .ok o ∧
      (Interior w (posAfter (rowStart y t.t2 t.t4) t.t0 x) ∧ Interior h (posAfter (rowStart y t.t3 t.t5) t.t1 x) → o = none) := by
    intro x y
    by_cases hxy : x < dw ∧ y < dh
    · obtain ⟨hx, hy⟩ := hxy
      have hx' : (x : Rat) ≤ 1048576 := by exact_mod_cast (by omega : x ≤ 1048576)
      have px := abs_le.mp (c158_total (n := x) (c := t.t0) (by omega : y ≤ 16777216) (by omega) (le_refl (2097152 : Rat)) (ha y hy).1
        (fun k hk => (hB y hy k (by omega)).1))
      have py := abs_le.mp (c158_total (n := x) (c := t.t1) (by omega : y ≤ 16777216) (by omega) (le_refl (2097152 : Rat)) (ha y hy).2
        (fun k hk => (hB y hy k (by omega)).2))
      have bx := abs_le.mp (hB y hy x hx).1
      have by' := abs_le.mp (hB y hy x hx).2
      generalize posAfter (rowStart y t.t2 t.t4) t.t0 x = p at *
      generalize posAfter (rowStart y t.t3 t.t5) t.t1 x = q at *
      have hp : |p| ≤ 16777216 := abs_le.mpr ⟨by linarith [px.1, bx.1], by linarith [px.2, bx.2]⟩
      have hq : |q| ≤ 16777216 := abs_le.mpr ⟨by linarith [py.1, by'.1], by linarith [py.2, by'.2]⟩
      have rp : IntRange p := ⟨by linarith [(abs_le.mp hp).1], by linarith [(abs_le.mp hp).2]⟩
      have rq : IntRange q := ⟨by linarith [(abs_le.mp hq).1], by linarith [(abs_le.mp hq).2]⟩
      by_cases hi : Interior w p ∧ Interior h q
      · refine ⟨none, fun _ _ => ⟨?_, fun _ => rfl⟩⟩
        cases mode with
        | fixed => exact (c92_fixed (s := noise x y) rp rq color src).1 (by rw [hs.width_eq, hs.height_eq]; exact hi)
        | noise => exact (c92_noise rp rq (hn x y).1 (hn x y).2 color src).1 (by rw [hs.width_eq, hs.height_eq]; exact hi)
        | «repeat» => exact (c162_repeat hs hw hh hp hq color).1 hi
      · have : ∃ c, awpFillPixelFl mode color src p q (noise x y) = .ok (some c) := by
          cases mode with
          | fixed => exact ⟨color, (c92_fixed (s := noise x y) rp rq color src).2 (by rw [hs.width_eq, hs.height_eq]; exact hi)⟩
          | noise =>
            obtain ⟨c, ec, _⟩ := (c92_noise rp rq (hn x y).1 (hn x y).2 color src).2 (by rw [hs.width_eq, hs.height_eq]; exact hi)
            exact ⟨c, ec⟩
          | «repeat» =>
            obtain ⟨c, ec, _⟩ := (c162_repeat (s := noise x y) hs hw hh hp hq color).2 hi
            exact ⟨c, ec⟩
        obtain ⟨c, ec⟩ := this
        exact ⟨some c, fun _ _ => ⟨ec, fun hc => absurd hc hi⟩⟩
    · exact ⟨none, fun a b => absurd ⟨a, b⟩ hxy⟩
  choose o ho using hex
  have e1 := h0.width_eq
  have e2 := h0.height_eq
  subst e1 e2
  obtain ⟨d, ed, hl, hv⟩ := fill_keep (st := dest.stride) (H := dest.height) (w := dest.width) (g := g) (o := o) (d0 := dest.data)
    (body := fun y x d => do
      let b ← awpFillPixelFl mode color src (posAfter (rowStart y t.t2 t.t4) t.t0 x) (posAfter (rowStart y t.t3 t.t5) t.t1 x) (noise x y)
      putSome d (y * dest.stride + x) b) hd.stride_ge hd.length_eq h0.pixel_eq (by
      intro y x d hy hx _
      rw [(ho x y hx hy).1]
      rfl)
  refine ⟨{ dest with data := d }, fun x y => (o x y).getD (g x y), ?_, ⟨hd.stride_ge, hl⟩, ⟨rfl, rfl, hv⟩, fun x y hx hy i1 i2 => ?_⟩
  · rw [c162_loops, ed]
    rfl
  · show (o x y).getD (g x y) = _
    rw [(ho x y hx hy).2 ⟨i1, i2⟩]
    rfl

example : awpFillFl .repeat 9 ⟨6, 4, 6, [1, 2, 3, 4, 5, 6, 1, 2, 3, 4, 5, 6, 1, 2, 3, 4, 5, 6, 1, 2, 3, 4, 5, 6]⟩ ⟨5, 1, 5, [7, 7, 7, 7, 7]⟩
    ⟨1, 0, 0, 1, 1 / 2, 3 / 2⟩ (fun _ _ => 0) = .ok ⟨5, 1, 5, [1, 7, 7, 7, 6]⟩ := by decide +kernel

end Nx
