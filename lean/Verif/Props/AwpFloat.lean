import Verif.Model.AwpFloat
import Verif.Props.AffineWarp
import Verif.Props.WarpFloat

/-!
# C161: warps between buffers in `float` arithmetic
-/

namespace Nx

variable {src : GImage Byte} {w h : Nat} {f : Nat → Nat → Byte} {xp yp : Rat}

/-- C161. A pixel of a buffer is a pixel of the image warped with a black background. -/
theorem c161_sample (hs : src.Shows w h f) (hw : 0 < w) (hh : 0 < h) (hx : |xp| ≤ 16777216) (hy : |yp| ≤ 16777216) :
    ∃ o, awpSampleFl src xp yp = .ok o ∧ warpPixelFl .black w h src.data src.stride xp yp 0 = .ok (o.getD 0) := by
  obtain ⟨c, ec⟩ := c158_safe (mode := .black) (s := 0) (by simp) hs hw hh hx hy (by norm_num)
  have ec' := ec
  have ax := abs_le.mp hx
  have ay := abs_le.mp hy
  obtain ⟨ex, nx⟩ := truncInt_fits (show IntRange xp from ⟨by linarith [ax.1], by linarith [ax.2]⟩)
  obtain ⟨ey, ny⟩ := truncInt_fits (show IntRange yp from ⟨by linarith [ay.1], by linarith [ay.2]⟩)
  unfold warpPixelFl at ec'
  unfold awpSampleFl
  rw [ex, ey] at ec' ⊢
  simp only [Res.ok_bind] at ec' ⊢
  rw [hs.width_eq, hs.height_eq]
  have hidx : ∀ (n : Nat) (i : Int), i ≠ 2147483647 →
      warpIndex .black n i = if i < 0 ∨ i ≥ (n : Int) - 1 then .ok none else .ok (some (i, i + 1)) := by
    intro n i hi
    unfold warpIndex
    simp only
    rw [if_neg hi]
  rw [hidx _ _ nx, hidx _ _ ny] at ec'
  by_cases hox : ratTrunc xp < 0 ∨ ratTrunc xp ≥ (w : Int) - 1
  · rw [if_pos hox] at ec'
    refine ⟨none, by rw [if_pos (by omega)]; rfl, ?_⟩
    rw [ec]
    by_cases hoy : ratTrunc yp < 0 ∨ ratTrunc yp ≥ (h : Int) - 1
    · rw [if_pos hoy] at ec'
      exact ec'.symm
    · rw [if_neg hoy] at ec'
      exact ec'.symm
  · by_cases hoy : ratTrunc yp < 0 ∨ ratTrunc yp ≥ (h : Int) - 1
    · rw [if_neg hox, if_pos hoy] at ec'
      refine ⟨none, by rw [if_pos (by omega)]; rfl, ?_⟩
      rw [ec]
      exact ec'.symm
    · rw [if_neg hox, if_neg hoy] at ec'
      simp only [Res.ok_bind] at ec'
      rw [if_neg (by omega)]
      obtain ⟨p, ep, ec'⟩ := Res.bind_eq_ok.mp ec'
      obtain ⟨I, eI, ec'⟩ := Res.bind_eq_ok.mp ec'
      rw [ep]
      simp only [Res.ok_bind]
      rw [eI]
      refine ⟨some (clampByte I), rfl, ?_⟩
      rw [ec]
      exact ec'.symm

example : awpSampleFl ⟨2, 2, 2, [100, 200, 0, 50]⟩ (1 / 2) (1 / 4) = .ok (some 118) ∧
    awpSampleFl ⟨2, 2, 2, [100, 200, 0, 50]⟩ 1 0 = .ok none := by decide +kernel

/-- C161. The positions do not depend on which pixels were left out. -/
theorem c161_loops (dest src : GImage Byte) (t : Nat → Rat) : awpWarpFl dest src t = (do
    let d ← forLoop dest.height (fun y d => forLoop dest.width (fun x d => do
      let b ← awpSampleFl src (posAfter (rowStart y (t 3) (t 6)) (t 0) x) (posAfter (rowStart y (t 4) (t 7)) (t 1) x)
      putSome d (y * dest.stride + x) b) 0 d) 0 dest.data
    pure { dest with data := d }) := by
  unfold awpWarpFl
  congr 1
  refine forLoop_congr_body dest.height _ _ ?_ dest.height 0 dest.data (by omega)
  intro y d hy
  have := forLoop_carry dest.width (fun x d => do
    let b ← awpSampleFl src (posAfter (rowStart y (t 3) (t 6)) (t 0) x) (posAfter (rowStart y (t 4) (t 7)) (t 1) x)
    putSome d (y * dest.stride + x) b) (fun x (s : List Byte × Rat × Rat) => do
      let b ← awpSampleFl src s.2.1 s.2.2
      let d ← putSome s.1 (y * dest.stride + x) b
      pure (d, posStep s.2.1 (t 0), posStep s.2.2 (t 1)))
    (fun x => (posAfter (rowStart y (t 3) (t 6)) (t 0) x, posAfter (rowStart y (t 4) (t 7)) (t 1) x)) (by
        intro x d hx
        simp only [posAfter]
        cases awpSampleFl src (posAfter (rowStart y (t 3) (t 6)) (t 0) x) (posAfter (rowStart y (t 4) (t 7)) (t 1) x) <;> rfl)
    dest.width 0 d (by omega)
  simp only [posAfter] at this
  rw [this]
  cases forLoop dest.width (fun x d => do
    let b ← awpSampleFl src (posAfter (rowStart y (t 3) (t 6)) (t 0) x) (posAfter (rowStart y (t 4) (t 7)) (t 1) x)
    putSome d (y * dest.stride + x) b) 0 d <;> rfl

/-- C161. A cleared buffer becomes the warped image of C158 with a black background, for all transformations whose positions stay
within 2²¹. -/
theorem c161_stage {dest : GImage Byte} {t : Nat → Rat} (hs : src.Shows w h f) (hw : 0 < w) (hh : 0 < h) (hd : dest.Wf) {dw dh : Nat}
    (h0 : dest.Shows dw dh (fun _ _ => 0)) (hdh : dh ≤ 16777216) (hdw : dw ≤ 1048576)
    (ha : ∀ y < dh, |y * t 3| ≤ 2097152 ∧ |y * t 4| ≤ 2097152)
    (hB : ∀ y < dh, ∀ x < dw, |y * t 3 + t 6 + x * t 0| ≤ 2097152 ∧ |y * t 4 + t 7 + x * t 1| ≤ 2097152) :
    ∃ d S, awpWarpFl dest src t = .ok d ∧ d.Wf ∧ d.Shows dw dh S ∧ ∀ x y : Nat, x < dw → y < dh →
      warpPixelFl .black w h src.data src.stride (posAfter (rowStart y (t 3) (t 6)) (t 0) x) (posAfter (rowStart y (t 4) (t 7)) (t 1) x) 0 =
        .ok (S x y) := by
  have hex : ∀ x y : Nat, ∃ o : Option Byte, x < dw → y < dh →
      awpSampleFl src (posAfter (rowStart y (t 3) (t 6)) (t 0) x) (posAfter (rowStart y (t 4) (t 7)) (t 1) x) = .ok o ∧
      warpPixelFl .black w h src.data src.stride (posAfter (rowStart y (t 3) (t 6)) (t 0) x) (posAfter (rowStart y (t 4) (t 7)) (t 1) x) 0 =
        .ok (o.getD 0) := by
    intro x y
    by_cases hxy : x < dw ∧ y < dh
    · obtain ⟨hx, hy⟩ := hxy
      have hx' : (x : Rat) ≤ 1048576 := by exact_mod_cast (by omega : x ≤ 1048576)
      have px := abs_le.mp (c158_total (n := x) (c := t 0) (by omega : y ≤ 16777216) (by omega) (le_refl (2097152 : Rat)) (ha y hy).1
        (fun k hk => (hB y hy k (by omega)).1))
      have py := abs_le.mp (c158_total (n := x) (c := t 1) (by omega : y ≤ 16777216) (by omega) (le_refl (2097152 : Rat)) (ha y hy).2
        (fun k hk => (hB y hy k (by omega)).2))
      have bx := abs_le.mp (hB y hy x hx).1
      have by' := abs_le.mp (hB y hy x hx).2
      obtain ⟨o, e1, e2⟩ := c161_sample (xp := posAfter (rowStart y (t 3) (t 6)) (t 0) x) (yp := posAfter (rowStart y (t 4) (t 7)) (t 1) x)
        hs hw hh (abs_le.mpr ⟨by linarith [px.1, bx.1], by linarith [px.2, bx.2]⟩)
        (abs_le.mpr ⟨by linarith [py.1, by'.1], by linarith [py.2, by'.2]⟩)
      exact ⟨o, fun _ _ => ⟨e1, e2⟩⟩
    · exact ⟨none, fun a b => absurd ⟨a, b⟩ hxy⟩
  choose o ho using hex
  have e1 := h0.width_eq
  have e2 := h0.height_eq
  subst e1 e2
  obtain ⟨d, e, hl, hv⟩ := fill_keep (st := dest.stride) (H := dest.height) (w := dest.width) (g := fun _ _ => 0) (o := o) (d0 := dest.data)
    (body := fun y x d => do
      let b ← awpSampleFl src (posAfter (rowStart y (t 3) (t 6)) (t 0) x) (posAfter (rowStart y (t 4) (t 7)) (t 1) x)
      putSome d (y * dest.stride + x) b) hd.stride_ge hd.length_eq h0.pixel_eq (by
      intro y x d hy hx _
      rw [(ho x y hx hy).1]
      rfl)
  refine ⟨{ dest with data := d }, fun x y => (o x y).getD 0, ?_, ⟨hd.stride_ge, hl⟩, ⟨rfl, rfl, hv⟩, fun x y hx hy => (ho x y hx hy).2⟩
  rw [c161_loops, e]
  rfl

/-- C161. Pixels taken from inside the source by more than the error `e` are those of the exact interpolation, except for the error of
the position and for truncation. -/
theorem c161_inside {dest : GImage Byte} {t : Nat → Rat} (hs : src.Shows w h f) (hw : 0 < w) (hh : 0 < h) (hw1 : w ≤ 16777216)
    (hh1 : h ≤ 16777216) (hd : dest.Wf) {dw dh : Nat} {B e : Rat} (h0 : dest.Shows dw dh (fun _ _ => 0)) (hdh : dh ≤ 16777216)
    (hdw : dw ≤ 1048576) (hB1 : B ≤ 2097152) (ha : ∀ y < dh, |y * t 3| ≤ B ∧ |y * t 4| ≤ B)
    (hB : ∀ y < dh, ∀ x < dw, |y * t 3 + t 6 + x * t 0| ≤ B ∧ |y * t 4 + t 7 + x * t 1| ≤ B)
    (he : (dw + 2) * (B + 2) / 8388608 ≤ e) :
    ∃ d S, awpWarpFl dest src t = .ok d ∧ d.Shows dw dh S ∧ ∀ x y : Nat, x < dw → y < dh →
      e ≤ y * t 3 + t 6 + x * t 0 → y * t 3 + t 6 + x * t 0 + e < (w : Rat) - 1 →
      e ≤ y * t 4 + t 7 + x * t 1 → y * t 4 + t 7 + x * t 1 + e < (h : Rat) - 1 →
      byteVal (S x y) ≤ bilinearAt (continued f Int.toNat Int.toNat) (y * t 3 + t 6 + x * t 0) (y * t 4 + t 7 + x * t 1) + 510 * e + 1 / 2000 ∧
      bilinearAt (continued f Int.toNat Int.toNat) (y * t 3 + t 6 + x * t 0) (y * t 4 + t 7 + x * t 1) <
        byteVal (S x y) + 1 + 510 * e + 1 / 2000 := by
  obtain ⟨d, S, e1, _, e3, e4⟩ := c161_stage (t := t) hs hw hh hd h0 hdh hdw
    (fun y hy => ⟨(ha y hy).1.trans hB1, (ha y hy).2.trans hB1⟩)
    (fun y hy x hx => ⟨(hB y hy x hx).1.trans hB1, (hB y hy x hx).2.trans hB1⟩)
  refine ⟨d, S, e1, e3, fun x y hx hy x0 x1 y0 y1 => ?_⟩
  have b0 : 0 ≤ B := (abs_nonneg _).trans (ha y hy).1
  have hx' : (x : Rat) ≤ dw := by exact_mod_cast hx.le
  have := mul_le_mul_of_nonneg_right (show (x : Rat) + 2 ≤ dw + 2 by linarith) (show 0 ≤ B + 2 by linarith)
  obtain ⟨c, ec, hc⟩ := c158_inside (mode := .black) (s := 0) hs hw1 hh1 (by omega) (by omega) hB1 (ha y hy) (fun k hk => hB y hy k (by omega))
    (by linarith) rfl rfl x0 x1 y0 y1
  rw [e4 x y hx hy] at ec
  injection ec with ec
  rw [ec]
  exact hc

/-- Half the size, shifted by a quarter of a pixel; the last pixel is outside and stays. -/
example : awpWarpFl ⟨3, 1, 3, [0, 0, 0]⟩ ⟨5, 3, 5, [10, 20, 30, 40, 50, 10, 20, 30, 40, 50, 10, 20, 30, 40, 50]⟩
    (fun k => if k = 0 then 2 else if k = 4 then 2 else if k = 1 ∨ k = 3 then 0 else 1 / 4) = .ok ⟨3, 1, 3, [12, 32, 0]⟩ := by decide +kernel

end Nx
