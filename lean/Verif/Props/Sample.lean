import Verif.Lemmas.SampleAa

/-!
# Properties C48 and C49: sampling and conversion of images
-/

namespace Nx

/-! ## C48: sampling -/

/-- C48. Downsampling any image into any destination, whatever its memory held, reads and
writes inside the images and gives every second pixel of every second row. -/
theorem c48_downsample {α : Type} (junk : Nat → α) {dest src : GImage α} {w h : Nat} {f : Nat → Nat → α} (hd : dest.Wf)
    (hw : src.Wf) (hsz : src.data.length ≤ 2147483647) (hs : src.Shows w h f) :
    ∃ d, gDownsample junk dest src = .ok d ∧ d.Wf ∧ d.Shows (w / 2) (h / 2) (fun x y => f (2 * x) (2 * y)) :=
  gDownsample_spec hd hsz hw hs

example : gDownsample (fun _ => 7) ⟨0, 0, 0, []⟩ (⟨3, 2, 4, [1, 2, 3, 0, 4, 5, 6, 0]⟩ : GImage Byte) =
    .ok ⟨1, 1, 1, [1]⟩ := by decide +kernel

/-- C48. Upsampling a non-empty image reads and writes inside the images and writes every
pixel of the destination: the interpolation of the neighbouring pixels, where the last
column and row are repeated. -/
theorem c48_upsample {α : Type} (junk : Nat → α) (avg2 : α → α → α) (avg4 : α → α → α → α → α) {dest src : GImage α}
    {w h : Nat} {f : Nat → Nat → α} (hd : dest.Wf) (hs : src.Shows w h f) (hw : 0 < w) (hh : 0 < h)
    (hsz : 2 * w * (2 * h) ≤ 2147483647) :
    ∃ d, gUpsample junk avg2 avg4 dest src = .ok d ∧ d.Wf ∧
      d.Shows (2 * w) (2 * h) (fun X Y => interp avg2 avg4 f (X / 2) (upper X w) (Y / 2) (upper Y h)) := by
  obtain ⟨d, e, h1, _, h2⟩ := gUpsample_spec (junk := junk) (avg2 := avg2) (avg4 := avg4) hd hs hw hh hsz
  exact ⟨d, e, h1, h2⟩

/-- C48. For 8-bit images the value is the mean of the four neighbours, rounded down. -/
theorem c48_upsample_uc (junk : Nat → Byte) {dest src : GImage Byte} {w h : Nat} {f : Nat → Nat → Byte} (hd : dest.Wf)
    (hs : src.Shows w h f) (hw : 0 < w) (hh : 0 < h) (hsz : 2 * w * (2 * h) ≤ 2147483647) :
    ∃ d, gUpsample junk avg2Uc avg4Uc dest src = .ok d ∧ d.Wf ∧ d.width = 2 * w ∧ d.height = 2 * h ∧
      ∀ X Y, X < 2 * w → Y < 2 * h → ∃ v, d.pixel X Y = some v ∧
        v.toNat = ((f (X / 2) (Y / 2)).toNat + (f (upper X w) (Y / 2)).toNat + (f (X / 2) (upper Y h)).toNat
          + (f (upper X w) (upper Y h)).toNat) / 4 := by
  obtain ⟨d, e, h1, h2⟩ := c48_upsample junk avg2Uc avg4Uc hd hs hw hh hsz
  refine ⟨d, e, h1, h2.width_eq, h2.height_eq, ?_⟩
  intro X Y hX hY
  refine ⟨_, h2.pixel_eq X Y hX hY, ?_⟩
  have hb : ∀ b : Byte, b.toNat < 256 := fun b => b.toNat_lt
  unfold interp avg2Uc avg4Uc
  by_cases hx : X / 2 = upper X w
  · rw [if_pos hx, ← hx]
    by_cases hy : Y / 2 = upper Y h
    · rw [if_pos hy, ← hy]
      omega
    · rw [if_neg hy]
      have h1 := hb (f (X / 2) (Y / 2))
      have h2 := hb (f (X / 2) (upper Y h))
      rw [UInt8.toNat_ofNat']
      omega
  · rw [if_neg hx]
    by_cases hy : Y / 2 = upper Y h
    · rw [if_pos hy, ← hy]
      have h1 := hb (f (X / 2) (Y / 2))
      have h2 := hb (f (upper X w) (Y / 2))
      rw [UInt8.toNat_ofNat']
      omega
    · rw [if_neg hy]
      have h1 := hb (f (X / 2) (Y / 2))
      have h2 := hb (f (X / 2) (upper Y h))
      have h3 := hb (f (upper X w) (Y / 2))
      have h4 := hb (f (upper X w) (upper Y h))
      rw [UInt8.toNat_ofNat']
      omega

example : gUpsample (fun _ => 7) avg2Uc avg4Uc ⟨0, 0, 0, []⟩ (⟨2, 2, 3, [10, 20, 0, 30, 50, 0]⟩ : GImage Byte) =
    .ok ⟨4, 4, 4, [10, 15, 20, 20, 20, 27, 35, 35, 30, 40, 50, 50, 30, 40, 50, 50]⟩ := by decide +kernel

/-- C48. Upsampling followed by downsampling restores the image, for every sample type and
every way of averaging. -/
theorem c48_up_down {α : Type} (junk junk' : Nat → α) (avg2 : α → α → α) (avg4 : α → α → α → α → α)
    {dest dest' src : GImage α} {w h : Nat} {f : Nat → Nat → α} (hd : dest.Wf) (hd' : dest'.Wf) (hs : src.Shows w h f)
    (hw : 0 < w) (hh : 0 < h) (hsz : 2 * w * (2 * h) ≤ 2147483647) :
    ∃ u d, gUpsample junk avg2 avg4 dest src = .ok u ∧ gDownsample junk' dest' u = .ok d ∧ d.Shows w h f := by
  obtain ⟨u, eu, h1, h2, h3⟩ := gUpsample_spec (junk := junk) (avg2 := avg2) (avg4 := avg4) hd hs hw hh hsz
  obtain ⟨d, e, _, h4⟩ := c48_downsample junk' hd' h1 h2 h3
  refine ⟨u, d, eu, e, ?_, ?_, ?_⟩
  · rw [h4.width_eq]; omega
  · rw [h4.height_eq]; omega
  · intro x y hx hy
    rw [h4.pixel_eq x y (by omega) (by omega), upF_00 hx hy]

/-- C48 fails for empty images: upsampling them accesses memory outside the images. -/
theorem c48_upsample_empty {α : Type} (junk : Nat → α) (avg2 : α → α → α) (avg4 : α → α → α → α → α)
    {dest src : GImage α} (hd : dest.Wf) (hs : src.Wf) (h0 : src.width = 0 ∨ src.height = 0) :
    gUpsample junk avg2 avg4 dest src = .ub :=
  gUpsample_empty hd hs h0

theorem aaScale_eq {s : Nat} (hs : s ≤ 6375) : (aaScale s).toNat = s / 25 := by
  have ht : ∀ (a b : Fin 80), round24 ((80 * a.val + b.val) * 10737418) / 268435456 = (80 * a.val + b.val) / 25 := by
    decide +kernel
  have h := ht ⟨s / 80, by omega⟩ ⟨s % 80, by omega⟩
  simp only [Nat.div_add_mod] at h
  unfold aaScale
  rw [h, UInt8.toNat_ofNat']
  omega

theorem aaVal_uc {n : Nat} (hn : 4 ≤ n) (s : Nat → Byte) {i : Nat} (hi : i < n / 2) :
    (aaVal aaUc n s i).toNat = smooth5 n (fun k => (s k).toNat) i := by
  have hb : ∀ k, (s k).toNat ≤ 255 := fun k => by have := (s k).toNat_lt; omega
  have r3 : reflect n (2 * (i : Int)) = 2 * i := by
    rw [reflect, if_neg (by omega), if_pos (by omega)]; omega
  have r4 : reflect n (2 * (i : Int) + 1) = 2 * i + 1 := by
    rw [reflect, if_neg (by omega), if_pos (by omega)]; omega
  unfold aaVal smooth5
  rw [r3, r4]
  by_cases h0 : i = 0
  · subst h0
    rw [if_pos rfl]
    have r1 : reflect n (2 * ((0 : Nat) : Int) - 2) = 2 := by simp [reflect]
    have r2 : reflect n (2 * ((0 : Nat) : Int) - 1) = 1 := by simp [reflect]
    have r5 : reflect n (2 * ((0 : Nat) : Int) + 2) = 2 := by
      rw [reflect, if_neg (by omega), if_pos (by omega)]; rfl
    have h1 := hb 0
    have h2 := hb 1
    have h3 := hb 2
    rw [r1, r2, r5]
    simp only [aaUc, Nat.mul_zero, Nat.zero_add]
    rw [aaScale_eq (by omega)]
    congr 1
    omega
  · rw [if_neg h0]
    have r1 : reflect n (2 * (i : Int) - 2) = 2 * i - 2 := by
      rw [reflect, if_neg (by omega), if_pos (by omega)]; omega
    have r2 : reflect n (2 * (i : Int) - 1) = 2 * i - 1 := by
      rw [reflect, if_neg (by omega), if_pos (by omega)]; omega
    have h1 := hb (2 * i - 2)
    have h2 := hb (2 * i - 1)
    have h3 := hb (2 * i)
    have h4 := hb (2 * i + 1)
    have h5 := hb (2 * i + 2)
    rw [r1, r2]
    by_cases hc : 2 * i + 2 < n
    · have r5 : reflect n (2 * (i : Int) + 2) = 2 * i + 2 := by
        rw [reflect, if_neg (by omega), if_pos (by omega)]; omega
      rw [if_pos hc, r5]
      simp only [aaUc]
      rw [aaScale_eq (by omega)]
      congr 1
      omega
    · have r5 : reflect n (2 * (i : Int) + 2) = 2 * i := by
        rw [reflect, if_neg (by omega), if_neg (by omega)]; omega
      rw [if_neg hc, r5]
      simp only [aaUc]
      rw [aaScale_eq (by omega)]
      congr 1
      omega

/-- C48. Smoothing downsampling of an 8-bit image of at least four columns stays inside the
images and gives the weighted means along rows, rounded down, with the image reflected at
its borders. -/
theorem c48_smooth_x_partial (junk : Nat → Byte) {dest src : GImage Byte} {w h : Nat} {f : Nat → Nat → Byte}
    (hd : dest.Wf) (hw : src.Wf) (hsz : src.data.length ≤ 2147483647) (hs : src.Shows w h f) (h4 : 4 ≤ w) :
    ∃ d, aaDownX aaUc junk dest src = .ok d ∧ d.Wf ∧ d.width = w / 2 ∧ d.height = h ∧
      ∀ x y, x < w / 2 → y < h → ∃ v, d.pixel x y = some v ∧ v.toNat = smooth5 w (fun i => (f i y).toNat) x := by
  obtain ⟨d, e, h1, h2⟩ := aaDownX_spec (ops := aaUc) (junk := junk) hd hw hsz hs h4
  exact ⟨d, e, h1, h2.width_eq, h2.height_eq, fun x y hx hy =>
    ⟨_, h2.pixel_eq x y hx hy, aaVal_uc h4 (fun i => f i y) hx⟩⟩

/-- C48. The same along columns for at least four rows. -/
theorem c48_smooth_y_partial (junk : Nat → Byte) {dest src : GImage Byte} {w h : Nat} {f : Nat → Nat → Byte}
    (hd : dest.Wf) (hw : src.Wf) (hsz : src.data.length ≤ 2147483647) (hs : src.Shows w h f) (h4 : 4 ≤ h) :
    ∃ d, aaDownY aaUc junk dest src = .ok d ∧ d.Wf ∧ d.width = w ∧ d.height = h / 2 ∧
      ∀ x y, x < w → y < h / 2 → ∃ v, d.pixel x y = some v ∧ v.toNat = smooth5 h (fun i => (f x i).toNat) y := by
  obtain ⟨d, e, h1, h2⟩ := aaDownY_spec (ops := aaUc) (junk := junk) hd hw hsz hs h4
  exact ⟨d, e, h1, h2.width_eq, h2.height_eq, fun x y hx hy =>
    ⟨_, h2.pixel_eq x y hx hy, aaVal_uc h4 (fun i => f x i) hy⟩⟩

example : aaDownX aaUc (fun _ => 7) ⟨0, 0, 0, []⟩ ⟨6, 1, 6, [0, 100, 50, 25, 200, 9]⟩ = .ok ⟨3, 1, 3, [52, 60, 106]⟩ := by
  decide +kernel

example : aaDownY aaUc (fun _ => 7) ⟨0, 0, 0, []⟩ ⟨1, 5, 2, [0, 1, 100, 1, 50, 1, 25, 1, 200, 1]⟩ =
    .ok ⟨1, 2, 1, [52, 60]⟩ := by
  decide +kernel

/-- C48. Smoothing downsampling, for samples of any type, stays inside the images and
writes every pixel when there are at least four columns: the result does not depend on
what the destination held. -/
theorem c48_smooth_x_bounds_partial {α : Type} (ops : AaOps α) {src : GImage α} {w h : Nat} {f : Nat → Nat → α}
    (hw : src.Wf) (hsz : src.data.length ≤ 2147483647) (hs : src.Shows w h f) (h4 : 4 ≤ w) :
    ∃ g : Nat → Nat → α, ∀ junk dest, dest.Wf → ∃ d, aaDownX ops junk dest src = .ok d ∧ d.Wf ∧
      d.Shows (w / 2) h g :=
  ⟨_, fun _ _ hd => aaDownX_spec (ops := ops) hd hw hsz hs h4⟩

/-- C48. The same along columns. -/
theorem c48_smooth_y_bounds_partial {α : Type} (ops : AaOps α) {src : GImage α} {w h : Nat} {f : Nat → Nat → α}
    (hw : src.Wf) (hsz : src.data.length ≤ 2147483647) (hs : src.Shows w h f) (h4 : 4 ≤ h) :
    ∃ g : Nat → Nat → α, ∀ junk dest, dest.Wf → ∃ d, aaDownY ops junk dest src = .ok d ∧ d.Wf ∧
      d.Shows w (h / 2) g :=
  ⟨_, fun _ _ hd => aaDownY_spec (ops := ops) hd hw hsz hs h4⟩

/-- The hypotheses hold for every well-formed image with pixels. -/
example {α : Type} {img : GImage α} (hw : img.Wf) (h1 : 0 < img.width) (h2 : 0 < img.height) :
    ∃ f, img.Shows img.width img.height f := GImage.shows_self hw h1 h2

example : (⟨4, 1, 5, [1, 2, 3, 4, 5]⟩ : GImage Byte).Wf := ⟨by decide, by decide⟩

/-- C48 fails for images of fewer than four columns: smoothing downsampling along rows
accesses memory outside the images. -/
theorem c48_smooth_x_narrow {α : Type} (ops : AaOps α) (junk : Nat → α) {dest src : GImage α} (hd : dest.Wf)
    (hw : src.Wf) (hsz : src.data.length ≤ 2147483647) (h4 : src.width < 4) (hh : 0 < src.height) :
    aaDownX ops junk dest src = .ub :=
  aaDownX_narrow hd hw hsz h4 hh

/-- C48 fails for images of fewer than four rows likewise. -/
theorem c48_smooth_y_low {α : Type} (ops : AaOps α) (junk : Nat → α) {dest src : GImage α} (hd : dest.Wf)
    (hw : src.Wf) (hsz : src.data.length ≤ 2147483647) (h4 : src.height < 4) (hh : 0 < src.width) :
    aaDownY ops junk dest src = .ub :=
  aaDownY_low hd hw hsz h4 hh

/-! ## C49: conversion to 8 bits -/

theorem minI_zero_maxI (t : Int) : minI 0 (maxI 255 t) = 0 := by
  unfold minI maxI
  split <;> split <;> omega

/-- C49 fails: whatever the samples and the rounding of products, the converted image is
black (or the conversion to `int` is undefined). -/
theorem c49_black (rnd : Rat → Rat) (junk : Nat → Byte) {dest : GImage Byte} {src : GImage Rat} {w h : Nat}
    {f : Nat → Nat → Rat} (hd : dest.Wf) (hsz : w * h ≤ 2147483647) (hs : src.Shows w h f)
    (hr : ∀ x y, x < w → y < h → InI32 (ratTrunc (rnd (f x y * 255)))) :
    ∃ d, toUc rnd junk dest src = .ok d ∧ d.Wf ∧ d.Shows w h (fun _ _ => 0) := by
  have e1 := hs.width_eq
  have e2 := hs.height_eq
  obtain ⟨d, ed, dw, dh, ds, dl⟩ := gResize_ok (junk := junk) (st := 0) (w := src.width) (h := src.height) hd
    (by rw [e1, e2]; exact hsz) (Nat.zero_le _)
  have hl : d.data.length = d.stride * d.height := by rw [dl, ds, dh]
  obtain ⟨r, er, hF⟩ := fill_spec (st := d.stride) (H := d.height) (w := d.width) (f := fun _ _ => (0 : Byte))
    (body := fun y x r => do
      let v ← readAt src.data (y * src.stride + x)
      let b ← toUcBody rnd v
      writeAt r (y * d.stride + x) b) (by omega) hl (by
      intro y x d' hy hx hd'
      rw [hs.read (by omega) (by omega)]
      simp only [Res.ok_bind]
      have : toUcBody rnd (f x y) = .ok 0 := by
        unfold toUcBody
        simp only
        rw [if_pos (hr x y (by omega) (by omega)), minI_zero_maxI]
        rfl
      rw [this]
      simp only [Res.ok_bind]
      exact writeAt_ok _ (by rw [hd']; exact pixIdx_lt (by omega) hy))
  refine ⟨{ d with data := r }, ?_, ⟨by simp only; omega, hF.1⟩, ?_⟩
  · unfold toUc
    rw [ed]
    simp only [Res.ok_bind, er]
    rfl
  · rw [← e1, ← e2, ← dw, ← dh]
    exact shows_of_filled rfl rfl hF

/-- The conversion in the other direction writes every pixel: the value over 255, rounded. -/
theorem c49_to_float (rnd : Rat → Rat) (junk : Nat → Rat) {dest : GImage Rat} {src : GImage Byte} {w h : Nat}
    {f : Nat → Nat → Byte} (hd : dest.Wf) (hsz : w * h ≤ 2147483647) (hs : src.Shows w h f) :
    ∃ d, toF32 rnd junk dest src = .ok d ∧ d.Wf ∧ d.Shows w h (fun x y => rnd (((f x y).toNat : Rat) / 255)) := by
  have e1 := hs.width_eq
  have e2 := hs.height_eq
  obtain ⟨d, ed, dw, dh, ds, dl⟩ := gResize_ok (junk := junk) (st := 0) (w := src.width) (h := src.height) hd
    (by rw [e1, e2]; exact hsz) (Nat.zero_le _)
  have hl : d.data.length = d.stride * d.height := by rw [dl, ds, dh]
  obtain ⟨r, er, hF⟩ := fill_spec (st := d.stride) (H := d.height) (w := d.width)
    (f := fun x y => rnd (((f x y).toNat : Rat) / 255))
    (body := fun y x r => do
      let v ← readAt src.data (y * src.stride + x)
      writeAt r (y * d.stride + x) (rnd ((v.toNat : Rat) / 255))) (by omega) hl (by
      intro y x d' hy hx hd'
      rw [hs.read (by omega) (by omega)]
      simp only [Res.ok_bind]
      exact writeAt_ok _ (by rw [hd']; exact pixIdx_lt (by omega) hy))
  refine ⟨{ d with data := r }, ?_, ⟨by simp only; omega, hF.1⟩, ?_⟩
  · unfold toF32
    rw [ed]
    simp only [Res.ok_bind, er]
    rfl
  · rw [← e1, ← e2, ← dw, ← dh]
    exact shows_of_filled rfl rfl hF

example : toF32 id (fun _ => 7) ⟨0, 0, 0, []⟩ ⟨2, 1, 3, [0, 255, 4]⟩ = .ok ⟨2, 1, 2, [0, 1]⟩ := by decide +kernel

/-- C49 fails: a white pixel becomes 0, though 255 is the nearest value. -/
theorem c49_white : toUc id (fun _ => 7) ⟨0, 0, 0, []⟩ ⟨1, 1, 1, [1]⟩ = .ok ⟨1, 1, 1, [0]⟩ ∧ NearestUc 1 255 ∧
    ¬NearestUc 1 0 := by
  refine ⟨by decide +kernel, ⟨by omega, ?_⟩, ?_⟩
  · intro c hc
    have : (255 * (1 : Rat) - (255 : Nat)).abs = 0 := by decide +kernel
    rw [this]
    exact Rat.abs_nonneg
  · intro h
    exact absurd (h.2 255 (by omega)) (by decide +kernel)

theorem ratAbs_le_of {v : Rat} {c : Nat} (hv : 2 * v ≤ 1) (hc : 1 ≤ c) : v.abs ≤ (v - c).abs := by
  have h1 : (1 : Rat) ≤ (c : Rat) := by exact_mod_cast hc
  rw [Rat.abs_of_nonpos (x := v - c) (by grind)]
  by_cases h : 0 ≤ v
  · rw [Rat.abs_of_nonneg h]
    grind
  · rw [Rat.abs_of_nonpos (by grind)]
    grind

/-- C49, only for samples of at most 1/510: these become 0, which is the nearest value. -/
theorem c49_dark_partial (rnd : Rat → Rat) {v : Rat} (hv : 510 * v ≤ 1) (hr : InI32 (ratTrunc (rnd (v * 255)))) :
    ∃ b, toUcBody rnd v = .ok b ∧ NearestUc v b.toNat := by
  refine ⟨0, ?_, ?_, ?_⟩
  · unfold toUcBody
    simp only
    rw [if_pos hr, minI_zero_maxI]
    rfl
  · decide
  · intro c hc
    have e : (255 * v - ((0 : Byte).toNat : Nat)) = 255 * v := by
      have : ((0 : Byte).toNat : Rat) = 0 := by decide +kernel
      rw [this]
      grind
    rw [e]
    by_cases h0 : c = 0
    · subst h0
      have : 255 * v - ((0 : Nat) : Rat) = 255 * v := by
        have : ((0 : Nat) : Rat) = 0 := by decide +kernel
        rw [this]
        grind
      rw [this]
      grind
    · exact ratAbs_le_of (by grind) (by omega)

example : (510 : Rat) * (1/600) ≤ 1 ∧ InI32 (ratTrunc (id ((1/600 : Rat) * 255))) := by decide +kernel

end Nx
