import Verif.Spec.ImageConv
import Verif.Props.Warp
import Verif.Props.ImageFilter
import Mathlib.Tactic.Linarith
import Mathlib.Tactic.NormNum
import Mathlib.Tactic.Ring
import Mathlib.Tactic.Positivity

/-! # C94: conversions of images and colour maps -/

namespace Nx

/-! ## Filling four channels -/

theorem fill4_spec {α : Type} {st H w : Nat} {f : Nat → Nat → Nat → α} {body : Nat → Nat → List α → Res (List α)}
    (hst : 4 * w ≤ st) {d0 : List α} (hd : d0.length = st * H)
    (hb : ∀ y x d, y < H → x < w → d.length = st * H → body y x d = .ok ((((d.set (y * st + (4 * x + 0)) (f x y 0)).set
      (y * st + (4 * x + 1)) (f x y 1)).set (y * st + (4 * x + 2)) (f x y 2)).set (y * st + (4 * x + 3)) (f x y 3))) :
    ∃ d, forLoop H (fun y d => forLoop w (body y) 0 d) 0 d0 = .ok d ∧ d.length = st * H ∧
      ∀ x y c, x < w → y < H → c < 4 → d[y * st + (4 * x + c)]? = some (f x y c) := by
  have key : ∃ d, forLoop H (fun y d => forLoop w (body y) 0 d) 0 d0 = .ok d ∧ (d.length = st * H ∧
      ∀ x' y' c, x' < w → y' < H → c < 4 → d[y' * st + (4 * x' + c)]? = some (f x' y' c)) := by
    apply forLoop_spec (fun y (d : List α) => d.length = st * H ∧ ∀ x' y' c, x' < w → y' < y → c < 4 →
      d[y' * st + (4 * x' + c)]? = some (f x' y' c)) (Nat.zero_le _)
    · exact ⟨hd, by intro x' y' c _ h; omega⟩
    · intro y d _ hy hP
      obtain ⟨d', e, hP'⟩ := forLoop_spec (n := w) (body := body y) (i0 := 0) (s := d)
        (fun x (d : List α) => d.length = st * H ∧ ∀ x' y' c, x' < w → (y' < y ∨ (y' = y ∧ x' < x)) → c < 4 →
          d[y' * st + (4 * x' + c)]? = some (f x' y' c)) (Nat.zero_le _) ⟨hP.1, fun x' y' c h1 h2 h3 => hP.2 x' y' c h1 (by omega) h3⟩ (by
          intro x d _ hx hP
          refine ⟨_, hb y x d hy hx hP.1, by simp only [List.length_set]; exact hP.1, ?_⟩
          intro x' y' c hx' h hc
          rw [pix_set (by simp only [List.length_set]; exact hP.1) (by omega) hy (by omega),
            pix_set (by simp only [List.length_set]; exact hP.1) (by omega) hy (by omega),
            pix_set (by simp only [List.length_set]; exact hP.1) (by omega) hy (by omega),
            pix_set hP.1 (by omega) hy (by omega)]
          by_cases hxy : x = x' ∧ y = y'
          · obtain ⟨rfl, rfl⟩ := hxy
            have hc' : c = 0 ∨ c = 1 ∨ c = 2 ∨ c = 3 := by omega
            rcases hc' with rfl | rfl | rfl | rfl <;> simp
          · rw [if_neg (by omega), if_neg (by omega), if_neg (by omega), if_neg (by omega)]
            exact hP.2 x' y' c hx' (by omega) hc)
      exact ⟨d', e, hP'.1, fun x' y' c h1 h2 h3 => hP'.2 x' y' c h1 (by omega) h3⟩
  exact key

theorem sResize_ok {α : Type} {junk : Nat → α} {rgba : Bool} {w h : Nat} (h1 : channels rgba * w ≤ 2147483647)
    (h2 : channels rgba * w * h ≤ 2147483647) :
    sResize junk rgba w h = .ok ⟨rgba, w, h, channels rgba * w, (List.range (channels rgba * w * h)).map junk⟩ := by
  unfold sResize
  rw [if_pos ⟨h1, h2⟩]

variable {α : Type} {img : SImg α} {w h : Nat}

theorem SImg.ShowsGray.ne_nil {f : Nat → Nat → α} (hs : img.ShowsGray w h f) (hw : 0 < w) (hh : 0 < h) : img.data ≠ [] := by
  intro hn
  have := hs.pixel_eq 0 0 hw hh
  rw [hn] at this
  simp at this

theorem SImg.ShowsRgba.ne_nil {f : Nat → Nat → Nat → α} (hs : img.ShowsRgba w h f) (hw : 0 < w) (hh : 0 < h) : img.data ≠ [] := by
  intro hn
  have := hs.pixel_eq 0 0 0 hw hh (by omega)
  rw [hn] at this
  simp at this

/-- Four writes to one pixel. -/
theorem write_four {d : List α} {st H x y : Nat} (hl : d.length = st * H) (hx : 4 * x + 3 < st) (hy : y < H) (a b c e : α) :
    (do
      let d ← writeAt d (y * st + 4 * x) a
      let d ← writeAt d (y * st + (4 * x + 1)) b
      let d ← writeAt d (y * st + (4 * x + 2)) c
      writeAt d (y * st + (4 * x + 3)) e) =
    .ok ((((d.set (y * st + (4 * x + 0)) a).set (y * st + (4 * x + 1)) b).set (y * st + (4 * x + 2)) c).set (y * st + (4 * x + 3)) e) := by
  have hp : y * st + (4 * x + 3) < st * H := pixIdx_lt hx hy
  rw [writeAt_ok _ (by omega)]
  simp only [Res.ok_bind]
  rw [writeAt_ok _ (by rw [List.length_set]; omega)]
  simp only [Res.ok_bind]
  rw [writeAt_ok _ (by simp only [List.length_set]; omega)]
  simp only [Res.ok_bind]
  rw [writeAt_ok _ (by simp only [List.length_set]; omega)]
  rfl

/-! ## Conversion of types -/

/-- C94. A grayscale image becomes one with four channels: three equal ones and a constant. -/
theorem c94_to_rgba {f : Nat → Nat → α} (hs : img.ShowsGray w h f) (hw : 0 < w) (hh : 0 < h) (h1 : 4 * w ≤ 2147483647)
    (h2 : 4 * w * h ≤ 2147483647) (junk : Nat → α) (one : α) (gray : α → α → α → α) :
    ∃ out, convertType junk one gray img true = .ok out ∧ out.ShowsRgba w h (fun x y => four (f x y) (f x y) (f x y) one) := by
  unfold convertType convertTypeMain
  have hr := hs.rgba_eq
  rw [hr]
  simp only [Bool.false_eq_true, if_false]
  rw [if_neg (by rintro (hc | hc); · cases hc
                 · exact hs.ne_nil hw hh hc), hs.width_eq, hs.height_eq, sResize_ok h1 h2]
  simp only [Res.ok_bind]
  obtain ⟨d, e, hl, hd⟩ := fill4_spec (f := fun x y => four (f x y) (f x y) (f x y) one) (st := 4 * w) (H := h) (w := w)
    (body := fun y => toRgbaBody one img.data img.stride (4 * w) y) (Nat.le_refl _)
    (d0 := (List.range (channels true * w * h)).map junk) (by simp [channels]) (by
      intro y x d hy hx hd
      unfold toRgbaBody
      rw [readAt_some (hs.pixel_eq x y hx hy)]
      simp only [Res.ok_bind]
      exact write_four hd (by omega) hy _ _ _ _)
  unfold toRgba
  have hc : channels true * w = 4 * w := rfl
  rw [hc] at e ⊢
  rw [e]
  refine ⟨_, rfl, ⟨?_, ?_⟩, rfl, rfl, rfl, hd⟩
  · simp
  · exact hl

/-- C94. An image with four channels becomes grayscale, if only the assertion is left out. -/
theorem c94_to_gray {f : Nat → Nat → Nat → α} (hs : img.ShowsRgba w h f) (hw : 0 < w) (hh : 0 < h)
    (h2 : w * h ≤ 2147483647) (junk : Nat → α) (one : α) (gray : α → α → α → α) :
    ∃ out, convertTypeMain junk one gray img false = .ok out ∧ out.ShowsGray w h (fun x y => gray (f x y 0) (f x y 1) (f x y 2)) := by
  have h1 : w ≤ 2147483647 := Nat.le_trans (Nat.le_mul_of_pos_right _ hh) h2
  unfold convertTypeMain
  have hr := hs.rgba_eq
  rw [hr]
  rw [if_neg (by rintro (hc | hc); · cases hc
                 · exact hs.ne_nil hw hh hc), hs.width_eq, hs.height_eq,
    sResize_ok (by simpa [channels] using h1) (by simpa [channels] using h2)]
  simp only [Res.ok_bind, if_true]
  obtain ⟨d, e, hF⟩ := fill_spec (f := fun x y => gray (f x y 0) (f x y 1) (f x y 2)) (st := channels false * w) (H := h) (w := w)
    (body := fun y => toGrayBody gray img.data img.stride (channels false * w) y) (by simp [channels])
    (d0 := (List.range (channels false * w * h)).map junk) (by simp) (by
      intro y x d hy hx hd
      unfold toGrayBody
      have h0 := readAt_some (hs.pixel_eq x y 0 hx hy (by omega))
      simp only [Nat.add_zero] at h0
      rw [h0]
      simp only [Res.ok_bind]
      rw [readAt_some (hs.pixel_eq x y 1 hx hy (by omega))]
      simp only [Res.ok_bind]
      rw [readAt_some (hs.pixel_eq x y 2 hx hy (by omega))]
      simp only [Res.ok_bind]
      exact writeAt_ok _ (by rw [hd]; exact pixIdx_lt (by simp [channels]; omega) hy))
  unfold toGray
  rw [e]
  refine ⟨_, rfl, ⟨?_, hF.1⟩, rfl, rfl, rfl, ?_⟩
  · simp [channels]
  · intro x y hx hy
    exact hF.2 x y hx (Or.inl hy)

/-- C94. With the assertion no image with four channels is ever converted. -/
theorem c94_rgba_fatal (himg : img.rgba = true) (junk : Nat → α) (one : α) (gray : α → α → α → α) (rgba : Bool) :
    convertType junk one gray img rgba = .fatal := by
  unfold convertType
  rw [himg]
  rfl

/-- C94. Gray values of `float` images lie between 0 and 1. -/
theorem c94_gray_range (rd : Rat → Rat) (r g b : Rat) : 0 ≤ grayF32 rd r g b ∧ grayF32 rd r g b ≤ 1 := by
  unfold grayF32
  simp only
  split
  · exact ⟨le_refl _, by norm_num⟩
  · rename_i h0
    split
    · exact ⟨by norm_num, le_refl _⟩
    · rename_i h1
      exact ⟨not_lt.mp h0, not_lt.mp h1⟩

namespace FloatNear
variable {rd : Rat → Rat}

theorem zero (hr : FloatNear rd) : rd 0 = 0 := by simpa using hr.exact 0 (by omega)

theorem one (hr : FloatNear rd) : rd 1 = 1 := by simpa using hr.exact 1 (by omega)

theorem nonneg (hr : FloatNear rd) {x : Rat} (hx : 0 ≤ x) : 0 ≤ rd x := by
  have := hr.mono 0 x hx
  rwa [hr.zero] at this

theorem le_nat (hr : FloatNear rd) {x : Rat} {n : Nat} (hn : n ≤ 16777216) (hx : x ≤ n) : rd x ≤ n := by
  have := hr.mono x n hx
  rwa [hr.exact n hn] at this

theorem le_one (hr : FloatNear rd) {x : Rat} (hx : x ≤ 1) : rd x ≤ 1 := by simpa using hr.le_nat (n := 1) (by omega) (by simpa using hx)

theorem nat_le (hr : FloatNear rd) {x : Rat} {n : Nat} (hn : n ≤ 16777216) (hx : (n : Rat) ≤ x) : (n : Rat) ≤ rd x := by
  have := hr.mono n x hx
  rwa [hr.exact n hn] at this

theorem err (hr : FloatNear rd) {x : Rat} (h0 : 0 ≤ x) (h1 : x ≤ 512) : x - 1 / 65536 ≤ rd x ∧ rd x ≤ x + 1 / 65536 := by
  have := abs_le.mp (hr.near x h0 h1)
  exact ⟨by linarith [this.1], by linarith [this.2]⟩

end FloatNear

/-- C94. Gray values are weighted sums of the channels, up to rounding. -/
theorem c94_gray_value {rd : Rat → Rat} (hr : FloatNear rd) {r g b : Rat} (hr0 : 0 ≤ r) (hr1 : r ≤ 1) (hg0 : 0 ≤ g) (hg1 : g ≤ 1)
    (hb0 : 0 ≤ b) (hb1 : b ≤ 1) : |grayF32 rd r g b - (30 * r + 59 * g + 11 * b) / 100| ≤ 1 / 10000 := by
  have er := hr.err (x := r * (40265320 / 134217728)) (by positivity) (by linarith)
  have eg := hr.err (x := g * (79188456 / 134217728)) (by positivity) (by linarith)
  have eb := hr.err (x := b * (14763950 / 134217728)) (by positivity) (by linarith)
  have pr := hr.nonneg (x := r * (40265320 / 134217728)) (by positivity)
  have pg := hr.nonneg (x := g * (79188456 / 134217728)) (by positivity)
  have pb := hr.nonneg (x := b * (14763950 / 134217728)) (by positivity)
  have es := hr.err (x := rd (r * (40265320 / 134217728)) + rd (g * (79188456 / 134217728))) (by linarith) (by linarith)
  have ps := hr.nonneg (x := rd (r * (40265320 / 134217728)) + rd (g * (79188456 / 134217728))) (by linarith)
  have et := hr.err (x := rd (rd (r * (40265320 / 134217728)) + rd (g * (79188456 / 134217728))) + rd (b * (14763950 / 134217728)))
    (by linarith) (by linarith)
  have pt := hr.nonneg (x := rd (rd (r * (40265320 / 134217728)) + rd (g * (79188456 / 134217728))) + rd (b * (14763950 / 134217728)))
    (by linarith)
  unfold grayF32
  simp only
  rw [if_neg (not_lt.mpr pt)]
  split
  · rename_i h1
    rw [abs_le]
    constructor <;> linarith
  · rw [abs_le]
    constructor <;> linarith

/-! ## Conversion of samples -/

/-- C94. Bytes become fractions. -/
theorem c94_to_float {src : SImg Byte} {f : Nat → Nat → Byte} (hs : src.ShowsGray w h f) (rd : Rat → Rat)
    (h1 : w ≤ 2147483647) (h2 : w * h ≤ 2147483647) (junk : Nat → Rat) :
    ∃ out, ucToF32 rd junk src = .ok out ∧ out.ShowsGray w h (fun x y => rd ((f x y).toNat / 255)) := by
  unfold ucToF32
  rw [hs.rgba_eq, hs.width_eq, hs.height_eq, sResize_ok (by simpa [channels] using h1) (by simpa [channels] using h2)]
  simp only [Res.ok_bind, Bool.false_eq_true, if_false]
  obtain ⟨d, e, hF⟩ := fill_spec (f := fun x y => rd ((f x y).toNat / 255)) (st := channels false * w) (H := h) (w := w)
    (body := fun y => ucToF32Body rd src.data src.stride (channels false * w) y) (by simp [channels])
    (d0 := (List.range (channels false * w * h)).map junk) (by simp) (by
      intro y x d hy hx hd
      unfold ucToF32Body
      rw [readAt_some (hs.pixel_eq x y hx hy)]
      simp only [Res.ok_bind]
      exact writeAt_ok _ (by rw [hd]; exact pixIdx_lt (by simp [channels]; omega) hy))
  rw [e]
  refine ⟨_, rfl, ⟨?_, hF.1⟩, rfl, rfl, rfl, ?_⟩
  · simp [channels]
  · intro x y hx hy
    exact hF.2 x y hx (Or.inl hy)

/-- C94. The conversion to bytes gives a black image, whatever the image is: the two bounds are interchanged. -/
theorem c94_to_bytes_black {src : SImg Rat} {f : Nat → Nat → Rat} (hs : src.ShowsGray w h f) (rd : Rat → Rat)
    (h1 : w ≤ 2147483647) (h2 : w * h ≤ 2147483647) (hi : ∀ x y, x < w → y < h → IntRange (rd (f x y * 255))) (junk : Nat → Byte) :
    ∃ out, f32ToUc rd junk src = .ok out ∧ out.ShowsGray w h (fun _ _ => 0) := by
  unfold f32ToUc
  rw [hs.rgba_eq, hs.width_eq, hs.height_eq, sResize_ok (by simpa [channels] using h1) (by simpa [channels] using h2)]
  simp only [Res.ok_bind, Bool.false_eq_true, if_false]
  obtain ⟨d, e, hF⟩ := fill_spec (f := fun _ _ => (0 : Byte)) (st := channels false * w) (H := h) (w := w)
    (body := fun y => f32ToUcBody rd src.data src.stride (channels false * w) y) (by simp [channels])
    (d0 := (List.range (channels false * w * h)).map junk) (by simp) (by
      intro y x d hy hx hd
      unfold f32ToUcBody
      rw [readAt_some (hs.pixel_eq x y hx hy)]
      simp only [Res.ok_bind]
      rw [(truncInt_fits (hi x y hx hy)).1]
      simp only [Res.ok_bind]
      have hmin : min 0 (max 255 (ratTrunc (rd (f x y * 255)))) = 0 := by omega
      rw [hmin]
      exact writeAt_ok _ (by rw [hd]; exact pixIdx_lt (by simp [channels]; omega) hy))
  rw [e]
  refine ⟨_, rfl, ⟨?_, hF.1⟩, rfl, rfl, rfl, ?_⟩
  · simp [channels]
  · intro x y hx hy
    exact hF.2 x y hx (Or.inl hy)

/-- C94. So converting to `float` and back keeps no image but a black one. -/
theorem c94_round_trip_black {src : SImg Byte} {f : Nat → Nat → Byte} (hs : src.ShowsGray w h f) {rd : Rat → Rat} (hr : FloatNear rd)
    (h1 : w ≤ 2147483647) (h2 : w * h ≤ 2147483647) (junk : Nat → Rat) (junk' : Nat → Byte) :
    ∃ mid out, ucToF32 rd junk src = .ok mid ∧ f32ToUc rd junk' mid = .ok out ∧ out.ShowsGray w h (fun _ _ => 0) := by
  obtain ⟨mid, e, hm⟩ := c94_to_float hs rd h1 h2 junk
  obtain ⟨out, e', ho⟩ := c94_to_bytes_black hm rd h1 h2 (by
    intro x y _ _
    have hb : ((f x y).toNat : Rat) ≤ 255 := by exact_mod_cast Nat.le_of_lt_succ (f x y).toNat_lt
    have ha0 : 0 ≤ rd ((f x y).toNat / 255) := hr.nonneg (by positivity)
    have ha1 : rd ((f x y).toNat / 255) ≤ 1 := hr.le_one (by rw [div_le_one (by norm_num)]; exact hb)
    have hc0 : 0 ≤ rd (rd ((f x y).toNat / 255) * 255) := hr.nonneg (by positivity)
    have hc1 : rd (rd ((f x y).toNat / 255) * 255) ≤ (255 : Nat) := hr.le_nat (by omega) (by push_cast; linarith)
    push_cast at hc1
    exact ⟨by linarith, by linarith⟩) junk'
  exact ⟨mid, out, e, e', ho⟩

/-! ## Colour maps -/

theorem storeByte_lt {v : Rat} (h0 : 0 ≤ v) (h1 : v < 256) :
    ∃ c, storeByte v = .ok c ∧ (c.toNat : Rat) ≤ v ∧ v < c.toNat + 1 := by
  have ht : ratTrunc v = ⌊v⌋ := ratTrunc_nonneg h0
  have hge : 0 ≤ ⌊v⌋ := Int.floor_nonneg.mpr h0
  have hlt : ⌊v⌋ < 256 := Int.floor_lt.mpr (by push_cast; exact h1)
  have hN : (UInt8.ofNat (⌊v⌋).toNat).toNat = (⌊v⌋).toNat := by
    rw [UInt8.toNat_ofNat']
    omega
  have hc : (((⌊v⌋).toNat : Nat) : Rat) = (⌊v⌋ : Rat) := by
    have : (((⌊v⌋).toNat : Nat) : Int) = ⌊v⌋ := Int.toNat_of_nonneg hge
    exact_mod_cast congrArg (Int.cast : Int → Rat) this
  refine ⟨UInt8.ofNat (⌊v⌋).toNat, ?_, ?_, ?_⟩
  · unfold storeByte
    rw [ht]
    simp only
    rw [if_pos ⟨hge, by omega⟩]
  · rw [hN, hc]
    exact Int.floor_le v
  · rw [hN, hc]
    exact Int.lt_floor_add_one v

/-- A channel near `L` in `[0, 1]` is stored as `255 * L` rounded down, nearly. -/
theorem store_near {rd : Rat → Rat} (hr : FloatNear rd) {s L : Rat} (hs : 0 ≤ s) (hL : L ≤ 1) (h1 : L - 10 / 65536 ≤ s)
    (h2 : s ≤ L + 10 / 65536) : ∃ c, storeByte (rd (s * 255)) = .ok c ∧ ByteOf c (255 * L) := by
  have e := hr.err (x := s * 255) (by positivity) (by linarith)
  obtain ⟨c, hc, h3, h4⟩ := storeByte_lt (hr.nonneg (x := s * 255) (by positivity)) (by linarith)
  exact ⟨c, hc, by linarith, by linarith⟩

/-- Products of nearby numbers in `[0, 1]`. -/
theorem mul_near {a a' b b' e1 e2 : Rat} (ha' : 0 ≤ a') (ha1 : a' ≤ 1) (hb : 0 ≤ b) (hb1 : b ≤ 1) (h1 : |a' - a| ≤ e1) (h2 : |b' - b| ≤ e2) :
    |a' * b' - a * b| ≤ e1 + e2 := by
  have e : a' * b' - a * b = a' * (b' - b) + (a' - a) * b := by ring
  have l1 : |a' * (b' - b)| ≤ e2 := by
    rw [abs_mul, abs_of_nonneg ha']
    exact le_trans (mul_le_of_le_one_left (abs_nonneg _) ha1) h2
  have l2 : |(a' - a) * b| ≤ e1 := by
    rw [abs_mul, abs_of_nonneg hb]
    exact le_trans (mul_le_of_le_one_right (abs_nonneg _) hb1) h1
  rw [e]
  exact le_trans (abs_add_le _ _) (by linarith)

/-- The mixture of two neighbours, with all roundings. -/
theorem cmMix_near {rd : Rat → Rat} (hr : FloatNear rd) {unit a b : Nat} (hu : 0 < unit) (ha : a ≤ unit) (hb : b ≤ unit) {al al' : Rat}
    (h0' : 0 ≤ al') (h1' : al' ≤ 1) (hd : |al' - al| ≤ 2 / 65536) :
    0 ≤ cmMix rd unit al' a b ∧ |cmMix rd unit al' a b - ((1 - al) * ((a : Rat) / unit) + al * ((b : Rat) / unit))| ≤ 10 / 65536 := by
  have hu' : (0 : Rat) < unit := by exact_mod_cast hu
  have fa0 : (0 : Rat) ≤ (a : Rat) / unit := by positivity
  have fb0 : (0 : Rat) ≤ (b : Rat) / unit := by positivity
  have fa1 : (a : Rat) / unit ≤ 1 := by rw [div_le_one hu']; exact_mod_cast ha
  have fb1 : (b : Rat) / unit ≤ 1 := by rw [div_le_one hu']; exact_mod_cast hb
  have ea := hr.near ((a : Rat) / unit) fa0 (by linarith)
  have eb := hr.near ((b : Rat) / unit) fb0 (by linarith)
  have pa := hr.nonneg fa0
  have pb := hr.nonneg fb0
  have pa1 := hr.le_one fa1
  have pb1 := hr.le_one fb1
  have be := hr.near (1 - al') (by linarith) (by linarith)
  have b0 := hr.nonneg (x := 1 - al') (by linarith)
  have b1 := hr.le_one (x := 1 - al') (by linarith)
  have bd : |rd (1 - al') - (1 - al)| ≤ 3 / 65536 := by
    rw [abs_le] at be hd ⊢
    constructor <;> linarith [be.1, be.2, hd.1, hd.2]
  have m1 := mul_near b0 b1 fa0 fa1 bd ea
  have m2 := mul_near h0' h1' fb0 fb1 hd eb
  have q0 : 0 ≤ rd (1 - al') * rd ((a : Rat) / unit) := mul_nonneg b0 pa
  have q1 : rd (1 - al') * rd ((a : Rat) / unit) ≤ 1 := mul_le_one₀ b1 pa pa1
  have r0 : 0 ≤ al' * rd ((b : Rat) / unit) := mul_nonneg h0' pb
  have r1 : al' * rd ((b : Rat) / unit) ≤ 1 := mul_le_one₀ h1' pb pb1
  have eq := hr.err q0 (by linarith)
  have er := hr.err r0 (by linarith)
  have nq := hr.nonneg q0
  have nr := hr.nonneg r0
  have lq := hr.le_one q1
  have lr := hr.le_one r1
  have es := hr.err (x := rd (rd (1 - al') * rd ((a : Rat) / unit)) + rd (al' * rd ((b : Rat) / unit))) (by linarith) (by linarith)
  refine ⟨hr.nonneg (by linarith), ?_⟩
  unfold cmMix
  rw [abs_le] at m1 m2 ⊢
  constructor <;> linarith [m1.1, m1.2, m2.1, m2.2]

/-- Interpolation just before a natural number. -/
theorem lerp_before {f : Nat → Rat} (hf0 : ∀ k, 0 ≤ f k) (hf1 : ∀ k, f k ≤ 1) {t : Rat} {k : Nat} (h0 : 0 ≤ t) (hk : t ≤ k)
    (hn : (k : Rat) - 1 / 65536 ≤ t) : |lerp f t - f k| ≤ 1 / 65536 := by
  by_cases he : t = k
  · unfold lerp
    rw [he, Nat.floor_natCast]
    simp
  · have hlt : t < k := lt_of_le_of_ne hk he
    obtain ⟨j, rfl⟩ : ∃ j, k = j + 1 := by
      cases k with
      | zero =>
        push_cast at hlt
        linarith
      | succ j => exact ⟨j, rfl⟩
    push_cast at hlt hn
    have hfl : ⌊t⌋₊ = j := (Nat.floor_eq_iff h0).mpr ⟨by linarith, hlt⟩
    unfold lerp
    rw [hfl]
    have e : (1 - (t - j)) * f j + (t - j) * f (j + 1) - f (j + 1) = (1 - (t - j)) * (f j - f (j + 1)) := by ring
    rw [e, abs_mul, abs_of_nonneg (by linarith)]
    have hd : |f j - f (j + 1)| ≤ 1 := by
      rw [abs_le]
      constructor <;> linarith [hf0 j, hf1 j, hf0 (j + 1), hf1 (j + 1)]
    calc (1 - (t - j)) * |f j - f (j + 1)| ≤ (1 - (t - j)) * 1 := mul_le_mul_of_nonneg_left hd (by linarith)
      _ ≤ 1 / 65536 := by linarith

/-- A table of colours: numbers of at most `unit`. -/
structure CmOk (unit : Nat) (rows : List (Nat × Nat × Nat)) : Prop where
  unit_pos : 0 < unit
  two : 2 ≤ rows.length
  few : rows.length ≤ 500
  le_unit : ∀ e ∈ rows, e.1 ≤ unit ∧ e.2.1 ≤ unit ∧ e.2.2 ≤ unit

theorem CmOk.channel {unit : Nat} {rows : List (Nat × Nat × Nat)} (hc : CmOk unit rows) {sel : Nat × Nat × Nat → Nat}
    (hsel : ∀ e ∈ rows, sel e ≤ unit) (k : Nat) : 0 ≤ cmChannel sel unit rows k ∧ cmChannel sel unit rows k ≤ 1 := by
  have hu : (0 : Rat) < unit := by exact_mod_cast hc.unit_pos
  unfold cmChannel
  split
  · rename_i e he
    refine ⟨by positivity, ?_⟩
    rw [div_le_one hu]
    exact_mod_cast hsel e (List.mem_of_getElem? he)
  · exact ⟨le_refl _, by norm_num⟩

theorem lerp_range {f : Nat → Rat} (hf0 : ∀ k, 0 ≤ f k) (hf1 : ∀ k, f k ≤ 1) {t : Rat} (h0 : 0 ≤ t) : 0 ≤ lerp f t ∧ lerp f t ≤ 1 := by
  have l1 : (⌊t⌋₊ : Rat) ≤ t := Nat.floor_le h0
  have l2 : t < ⌊t⌋₊ + 1 := Nat.lt_floor_add_one t
  unfold lerp
  constructor
  · have := mul_nonneg (show 0 ≤ 1 - (t - ⌊t⌋₊) by linarith) (hf0 ⌊t⌋₊)
    have := mul_nonneg (show 0 ≤ t - ⌊t⌋₊ by linarith) (hf0 (⌊t⌋₊ + 1))
    linarith
  · have := mul_le_mul_of_nonneg_left (hf1 ⌊t⌋₊) (show 0 ≤ 1 - (t - ⌊t⌋₊) by linarith)
    have := mul_le_mul_of_nonneg_left (hf1 (⌊t⌋₊ + 1)) (show 0 ≤ t - ⌊t⌋₊ by linarith)
    linarith

/-- What the computed position in the table is, and how near the mixture of its neighbours is to the exact interpolation. -/
theorem position_spec {rd : Rat → Rat} (hr : FloatNear rd) {n : Nat} (hn : n ≤ 500) {t : Rat} (h0 : 0 ≤ t) (h1 : t ≤ n) :
    ∃ k : Nat, ratTrunc (rd t) = k ∧ truncInt (rd t) = .ok (k : Int) ∧ k ≤ n ∧ (k = n → (n : Rat) - 1 / 65536 ≤ t) ∧
      0 ≤ rd (rd t - k) ∧ rd (rd t - k) ≤ 1 ∧
      ((⌊t⌋₊ = k ∧ |rd (rd t - k) - (t - k)| ≤ 2 / 65536) ∨ (t ≤ k ∧ (k : Rat) - 1 / 65536 ≤ t ∧ rd (rd t - k) = 0)) := by
  have hn' : (n : Rat) ≤ 500 := by exact_mod_cast hn
  have p0 := hr.nonneg h0
  have p1 := hr.le_nat (by omega) h1
  have et := hr.err h0 (by linarith)
  refine ⟨⌊rd t⌋₊, ?_⟩
  have k1 : (⌊rd t⌋₊ : Rat) ≤ rd t := Nat.floor_le p0
  have k2 : rd t < ⌊rd t⌋₊ + 1 := Nat.lt_floor_add_one _
  have htr : ratTrunc (rd t) = (⌊rd t⌋₊ : Int) := by
    rw [ratTrunc_nonneg p0, ← Int.natCast_floor_eq_floor p0]
  have hkn : ⌊rd t⌋₊ ≤ n := by
    have : (⌊rd t⌋₊ : Rat) ≤ n := le_trans k1 p1
    exact_mod_cast this
  have hIR : IntRange (rd t) := ⟨by linarith, by linarith⟩
  refine ⟨htr, by rw [← htr]; exact (truncInt_fits hIR).1, hkn, ?_, hr.nonneg (by linarith), hr.le_one (by linarith), ?_⟩
  · intro hk
    rw [hk] at k1
    linarith [et.2]
  · by_cases hlt : t < ⌊rd t⌋₊
    · right
      have hle : rd t ≤ (⌊rd t⌋₊ : Nat) := hr.le_nat (by omega) (le_of_lt hlt)
      have heq : rd t = (⌊rd t⌋₊ : Nat) := le_antisymm hle k1
      refine ⟨le_of_lt hlt, by linarith [et.2], ?_⟩
      rw [← heq, sub_self]
      exact hr.zero
    · left
      have hge := not_lt.mp hlt
      refine ⟨?_, ?_⟩
      · apply (Nat.floor_eq_iff h0).mpr
        refine ⟨hge, ?_⟩
        by_contra hc
        have : ((⌊rd t⌋₊ + 1 : Nat) : Rat) ≤ rd t := hr.nat_le (by omega) (by push_cast; linarith)
        push_cast at this
        linarith
      · have ed := hr.err (x := rd t - ⌊rd t⌋₊) (by linarith) (by linarith)
        rw [abs_le]
        constructor <;> linarith [et.1, et.2, ed.1, ed.2]

/-- One channel between two colours. -/
theorem channel_mix {rd : Rat → Rat} (hr : FloatNear rd) {unit : Nat} {rows : List (Nat × Nat × Nat)} (hc : CmOk unit rows)
    {sel : Nat × Nat × Nat → Nat} (hsel : ∀ e ∈ rows, sel e ≤ unit) {t al' : Rat} (h0 : 0 ≤ t) {k : Nat} {a b : Nat × Nat × Nat}
    (ha : rows[k]? = some a) (hb : rows[k + 1]? = some b) (h0' : 0 ≤ al') (h1' : al' ≤ 1)
    (hcase : (⌊t⌋₊ = k ∧ |al' - (t - k)| ≤ 2 / 65536) ∨ (t ≤ k ∧ (k : Rat) - 1 / 65536 ≤ t ∧ al' = 0)) :
    ∃ c, storeByte (rd (cmMix rd unit al' (sel a) (sel b) * 255)) = .ok c ∧ ByteOf c (255 * lerp (cmChannel sel unit rows) t) := by
  have hf := hc.channel hsel
  have hl := lerp_range (fun k => (hf k).1) (fun k => (hf k).2) h0
  have sa := hsel a (List.mem_of_getElem? ha)
  have sb := hsel b (List.mem_of_getElem? hb)
  have fa : cmChannel sel unit rows k = (sel a : Rat) / unit := by unfold cmChannel; rw [ha]
  have fb : cmChannel sel unit rows (k + 1) = (sel b : Rat) / unit := by unfold cmChannel; rw [hb]
  rcases hcase with ⟨hk, hd⟩ | ⟨hk1, hk2, rfl⟩
  · have l1 : (⌊t⌋₊ : Rat) ≤ t := Nat.floor_le h0
    have l2 : t < ⌊t⌋₊ + 1 := Nat.lt_floor_add_one t
    rw [hk] at l1 l2
    obtain ⟨p, q⟩ := cmMix_near hr hc.unit_pos sa sb (al := t - k) h0' h1' hd
    have e : lerp (cmChannel sel unit rows) t = (1 - (t - k)) * ((sel a : Rat) / unit) + (t - k) * ((sel b : Rat) / unit) := by
      unfold lerp
      rw [hk, fa, fb]
    rw [← e] at q
    have := abs_le.mp q
    exact store_near hr p hl.2 (by linarith [this.1]) (by linarith [this.2])
  · have hu : (0 : Rat) < unit := by exact_mod_cast hc.unit_pos
    have hL := lerp_before (fun k => (hf k).1) (fun k => (hf k).2) h0 hk1 hk2
    rw [fa] at hL
    have hL := abs_le.mp hL
    have fa0 : (0 : Rat) ≤ (sel a : Rat) / unit := by positivity
    have fa1 : (sel a : Rat) / unit ≤ 1 := by rw [div_le_one hu]; exact_mod_cast sa
    have e1 := hr.err fa0 (by linarith)
    have n1 := hr.nonneg fa0
    have m1 := hr.le_one fa1
    have e2 := hr.err n1 (by linarith)
    have n2 := hr.nonneg n1
    have m2 := hr.le_one m1
    have e3 := hr.err n2 (by linarith)
    have es : cmMix rd unit 0 (sel a) (sel b) = rd (rd (rd ((sel a : Rat) / unit))) := by
      unfold cmMix
      rw [sub_zero, hr.one, one_mul, zero_mul, hr.zero, add_zero]
    rw [es]
    exact store_near hr (hr.nonneg n2) hl.2 (by linarith [hL.1, hL.2]) (by linarith [hL.1, hL.2])

/-- The last colour. -/
theorem channel_last {rd : Rat → Rat} (hr : FloatNear rd) {unit : Nat} {rows : List (Nat × Nat × Nat)} (hc : CmOk unit rows)
    {sel : Nat × Nat × Nat → Nat} (hsel : ∀ e ∈ rows, sel e ≤ unit) {t : Rat} (h0 : 0 ≤ t) {k : Nat} {a : Nat × Nat × Nat}
    (ha : rows[k]? = some a) (hk1 : t ≤ k) (hk2 : (k : Rat) - 1 / 65536 ≤ t) :
    ∃ c, storeByte (rd (rd ((sel a : Rat) / unit) * 255)) = .ok c ∧ ByteOf c (255 * lerp (cmChannel sel unit rows) t) := by
  have hf := hc.channel hsel
  have hl := lerp_range (fun k => (hf k).1) (fun k => (hf k).2) h0
  have sa := hsel a (List.mem_of_getElem? ha)
  have fa : cmChannel sel unit rows k = (sel a : Rat) / unit := by unfold cmChannel; rw [ha]
  have hu : (0 : Rat) < unit := by exact_mod_cast hc.unit_pos
  have hL := lerp_before (fun k => (hf k).1) (fun k => (hf k).2) h0 hk1 hk2
  rw [fa] at hL
  have hL := abs_le.mp hL
  have fa0 : (0 : Rat) ≤ (sel a : Rat) / unit := by positivity
  have fa1 : (sel a : Rat) / unit ≤ 1 := by rw [div_le_one hu]; exact_mod_cast sa
  have e1 := hr.err fa0 (by linarith)
  exact store_near hr (hr.nonneg fa0) hl.2 (by linarith [hL.1, hL.2]) (by linarith [hL.1, hL.2])

/-- A colour of a table, for any table. -/
theorem table_spec {rd : Rat → Rat} (hr : FloatNear rd) {unit : Nat} {rows : List (Nat × Nat × Nat)} (hc : CmOk unit rows) {v : Rat}
    (h0 : 0 ≤ v) (h1 : v ≤ 1) :
    ∃ r g b, (do let c ← cmInterp rd unit rows v; cmStore rd c) = .ok (r, g, b) ∧
      ByteOf r (255 * lerp (cmChannel (·.1) unit rows) ((rows.length - 1) * v)) ∧
      ByteOf g (255 * lerp (cmChannel (·.2.1) unit rows) ((rows.length - 1) * v)) ∧
      ByteOf b (255 * lerp (cmChannel (·.2.2) unit rows) ((rows.length - 1) * v)) := by
  obtain ⟨n, hn⟩ : ∃ n, rows.length = n + 1 := ⟨rows.length - 1, by have := hc.two; omega⟩
  have hfew := hc.few
  have hcast : ((rows.length : Rat) - 1) = n := by rw [hn]; push_cast; ring
  have t0 : 0 ≤ ((rows.length : Rat) - 1) * v := by rw [hcast]; positivity
  have t1 : ((rows.length : Rat) - 1) * v ≤ n := by
    rw [hcast]
    exact mul_le_of_le_one_right (by positivity) h1
  obtain ⟨k, hk1, hk2, hk3, hk4, hk5, hk6, hk7⟩ := position_spec hr (n := n) (by omega) t0 t1
  have s1 : ∀ e ∈ rows, e.1 ≤ unit := fun e he => (hc.le_unit e he).1
  have s2 : ∀ e ∈ rows, e.2.1 ≤ unit := fun e he => (hc.le_unit e he).2.1
  have s3 : ∀ e ∈ rows, e.2.2 ≤ unit := fun e he => (hc.le_unit e he).2.2
  obtain ⟨a, ha⟩ : ∃ a, rows[k]? = some a := ⟨rows[k]'(by omega), List.getElem?_eq_getElem (by omega)⟩
  have ra : readI rows (k : Int) = .ok a := by rw [readI_nat rfl]; exact readAt_some ha
  by_cases hlast : k = n
  · have hcond : (k : Int) = (rows.length : Int) - 1 := by rw [hn, hlast]; push_cast; ring
    have hI : cmInterp rd unit rows v = .ok (rd ((a.1 : Rat) / unit), rd ((a.2.1 : Rat) / unit), rd ((a.2.2 : Rat) / unit)) := by
      unfold cmInterp
      simp only [hk2, Res.ok_bind]
      rw [if_pos hcond, ra]
      rfl
    have b1 : ((rows.length : Rat) - 1) * v ≤ k := by rw [hlast]; exact t1
    have b2 : (k : Rat) - 1 / 65536 ≤ ((rows.length : Rat) - 1) * v := by
      have := hk4 hlast
      rw [hlast]
      exact this
    obtain ⟨r, er, hr'⟩ := channel_last hr hc (sel := (·.1)) s1 t0 ha b1 b2
    obtain ⟨g, eg, hg'⟩ := channel_last hr hc (sel := (·.2.1)) s2 t0 ha b1 b2
    obtain ⟨b, eb, hb'⟩ := channel_last hr hc (sel := (·.2.2)) s3 t0 ha b1 b2
    refine ⟨r, g, b, ?_, hr', hg', hb'⟩
    rw [hI]
    simp only [Res.ok_bind, cmStore]
    rw [er, eg, eb]
    rfl
  · have hcond : ¬ (k : Int) = (rows.length : Int) - 1 := by rw [hn]; push_cast; omega
    obtain ⟨b, hb⟩ : ∃ b, rows[k + 1]? = some b := ⟨rows[k + 1]'(by omega), List.getElem?_eq_getElem (by omega)⟩
    have rb : readI rows ((k : Int) + 1) = .ok b := by rw [readI_nat (k := k + 1) (by push_cast; rfl)]; exact readAt_some hb
    obtain ⟨cr, er, hr'⟩ := channel_mix hr hc (sel := (·.1)) s1 t0 ha hb hk5 hk6 hk7
    obtain ⟨cg, eg, hg'⟩ := channel_mix hr hc (sel := (·.2.1)) s2 t0 ha hb hk5 hk6 hk7
    obtain ⟨cb, eb, hb'⟩ := channel_mix hr hc (sel := (·.2.2)) s3 t0 ha hb hk5 hk6 hk7
    refine ⟨cr, cg, cb, ?_, hr', hg', hb'⟩
    unfold cmInterp
    simp only [hk2, Res.ok_bind]
    rw [if_neg hcond, ra]
    simp only [Res.ok_bind]
    rw [rb]
    simp only [Res.ok_bind, Res.pure_eq, cmStore, Int.cast_natCast]
    rw [er, eg, eb]
    rfl

theorem cmTable_ok : ∀ map unit rows, cmTable map = some (unit, rows) → CmOk unit rows := by
  have k1 : ∀ e ∈ viridisTable, e.1 ≤ 1000000 ∧ e.2.1 ≤ 1000000 ∧ e.2.2 ≤ 1000000 := by decide +kernel
  have k2 : ∀ e ∈ plasmaTable, e.1 ≤ 1000000 ∧ e.2.1 ≤ 1000000 ∧ e.2.2 ≤ 1000000 := by decide +kernel
  have k3 : ∀ e ∈ magmaTable, e.1 ≤ 1000000 ∧ e.2.1 ≤ 1000000 ∧ e.2.2 ≤ 1000000 := by decide +kernel
  have k4 : ∀ e ∈ cubehelixTable, e.1 ≤ 1000000000000000000 ∧ e.2.1 ≤ 1000000000000000000 ∧ e.2.2 ≤ 1000000000000000000 := by decide +kernel
  intro map unit rows h
  cases map with
  | gray => cases h
  | viridis => cases h; exact ⟨by omega, by decide +kernel, by decide +kernel, k1⟩
  | plasma => cases h; exact ⟨by omega, by decide +kernel, by decide +kernel, k2⟩
  | magma => cases h; exact ⟨by omega, by decide +kernel, by decide +kernel, k3⟩
  | cubehelix => cases h; exact ⟨by omega, by decide +kernel, by decide +kernel, k4⟩

/-- C94. For every value between 0 and 1 the colour maps stay inside of their tables and the range of bytes, and each channel is the
linear interpolation of the table, rounded down; whatever the rounding of `float` does. -/
theorem c94_colormap {rd : Rat → Rat} (hr : FloatNear rd) {map : ColorMap} {unit : Nat} {rows : List (Nat × Nat × Nat)}
    (hm : cmTable map = some (unit, rows)) {v : Rat} (h0 : 0 ≤ v) (h1 : v ≤ 1) :
    ∃ r g b, cmApply rd map v = .ok (r, g, b) ∧
      ByteOf r (255 * lerp (cmChannel (·.1) unit rows) ((rows.length - 1) * v)) ∧
      ByteOf g (255 * lerp (cmChannel (·.2.1) unit rows) ((rows.length - 1) * v)) ∧
      ByteOf b (255 * lerp (cmChannel (·.2.2) unit rows) ((rows.length - 1) * v)) := by
  obtain ⟨r, g, b, e, h⟩ := table_spec hr (cmTable_ok map unit rows hm) h0 h1
  refine ⟨r, g, b, ?_, h⟩
  unfold cmApply
  rw [hm]
  exact e

/-- C94. The gray colour map. -/
theorem c94_colormap_gray {rd : Rat → Rat} (hr : FloatNear rd) {v : Rat} (h0 : 0 ≤ v) (h1 : v ≤ 1) :
    ∃ c, cmApply rd .gray v = .ok (c, c, c) ∧ ByteOf c (255 * v) := by
  obtain ⟨c, e, h⟩ := store_near hr (s := v) (L := v) h0 h1 (by linarith) (by linarith)
  refine ⟨c, ?_, h⟩
  show cmStore rd (v, v, v) = _
  simp only [cmStore, e, Res.ok_bind, Res.pure_eq]

/-- C94. Both ends of a table are reached. -/
theorem c94_ends (f : Nat → Rat) (n : Nat) : lerp f (n * 0) = f 0 ∧ lerp f (n * 1) = f n := by
  constructor
  · unfold lerp
    simp
  · unfold lerp
    simp

/-- C94. A value of 2 is outside of every table. -/
theorem c94_outside {map : ColorMap} (hm : map ≠ .gray) : cmApply id map 2 = .ub := by
  cases map with
  | gray => exact absurd rfl hm
  | viridis => decide +kernel
  | plasma => decide +kernel
  | magma => decide +kernel
  | cubehelix => decide +kernel

/-- C94. The image of colours has at each pixel the colour of the value of the pixel. -/
theorem c94_apply {gray : SImg α} {f : Nat → Nat → α} (hs : gray.ShowsGray w h f) (rd : Rat → Rat) (map : ColorMap) (val : α → Rat)
    (h1 : 4 * w ≤ 2147483647) (h2 : 4 * w * h ≤ 2147483647) {c : Nat → Nat → Byte × Byte × Byte}
    (hc : ∀ x y, x < w → y < h → cmApply rd map (val (f x y)) = .ok (c x y)) (junk : Nat → Byte) :
    ∃ out, applyColormap rd map val junk gray = .ok out ∧
      out.ShowsRgba w h (fun x y => four (c x y).1 (c x y).2.1 (c x y).2.2 255) := by
  unfold applyColormap
  rw [hs.rgba_eq, hs.width_eq, hs.height_eq, sResize_ok h1 h2]
  simp only [Res.ok_bind, Bool.false_eq_true, if_false]
  obtain ⟨d, e, hl, hd⟩ := fill4_spec (f := fun x y => four (c x y).1 (c x y).2.1 (c x y).2.2 255) (st := channels true * w) (H := h) (w := w)
    (body := fun y => cmBody rd map val gray.data gray.stride (channels true * w) y) (by simp [channels])
    (d0 := (List.range (channels true * w * h)).map junk) (by simp) (by
      intro y x d hy hx hd
      unfold cmBody
      rw [readAt_some (hs.pixel_eq x y hx hy)]
      simp only [Res.ok_bind]
      rw [hc x y hx hy]
      simp only [Res.ok_bind]
      exact write_four hd (by simp [channels]; omega) hy _ _ _ _)
  rw [e]
  refine ⟨_, rfl, ⟨?_, hl⟩, rfl, rfl, rfl, hd⟩
  simp [channels]

/-- C94. Every grayscale image of bytes can be coloured, and every one of `float` with values between 0 and 1. -/
theorem c94_apply_total {gray : SImg α} {f : Nat → Nat → α} (hs : gray.ShowsGray w h f) {rd : Rat → Rat} (hr : FloatNear rd) (map : ColorMap)
    (val : α → Rat) (hv : ∀ x y, x < w → y < h → 0 ≤ val (f x y) ∧ val (f x y) ≤ 1) (h1 : 4 * w ≤ 2147483647) (h2 : 4 * w * h ≤ 2147483647)
    (junk : Nat → Byte) : ∃ (out : SImg Byte) (c : Nat → Nat → Byte × Byte × Byte), applyColormap rd map val junk gray = .ok out ∧
      out.ShowsRgba w h (fun x y => four (c x y).1 (c x y).2.1 (c x y).2.2 255) ∧
      ∀ x y, x < w → y < h → cmApply rd map (val (f x y)) = .ok (c x y) := by
  have hc : ∀ x y, ∃ c, x < w → y < h → cmApply rd map (val (f x y)) = .ok c := by
    intro x y
    by_cases hxy : x < w ∧ y < h
    · obtain ⟨v0, v1⟩ := hv x y hxy.1 hxy.2
      cases hm : cmTable map with
      | none =>
        have : map = .gray := by cases map <;> first | rfl | cases hm
        subst this
        obtain ⟨c, e, _⟩ := c94_colormap_gray hr v0 v1
        exact ⟨_, fun _ _ => e⟩
      | some p =>
        obtain ⟨r, g, b, e, _⟩ := c94_colormap hr (unit := p.1) (rows := p.2) hm v0 v1
        exact ⟨_, fun _ _ => e⟩
    · exact ⟨(0, 0, 0), fun a b => absurd ⟨a, b⟩ hxy⟩
  choose c hc using hc
  obtain ⟨out, e, ho⟩ := c94_apply hs rd map val h1 h2 (c := c) hc junk
  exact ⟨out, c, e, ho, hc⟩

/-- The values of bytes. -/
theorem byte_value {rd : Rat → Rat} (hr : FloatNear rd) (v : Byte) : 0 ≤ rd (byteVal v / 255) ∧ rd (byteVal v / 255) ≤ 1 := by
  have hb : ((v.toNat : Nat) : Rat) ≤ 255 := by exact_mod_cast Nat.le_of_lt_succ v.toNat_lt
  unfold byteVal
  exact ⟨hr.nonneg (by positivity), hr.le_one (by rw [div_le_one (by norm_num)]; exact hb)⟩

/-! ## Examples -/

/-- Exact arithmetic is one of the roundings. -/
example : FloatNear id := ⟨fun _ _ h => h, fun _ _ => rfl, fun x _ _ => by simp⟩

/-- Rounding down to multiples of 2^-16 is another one. -/
example : FloatNear (fun x => (⌊x * 65536⌋ : Rat) / 65536) := by
  refine ⟨?_, ?_, ?_⟩
  · intro a b h
    have : ⌊a * 65536⌋ ≤ ⌊b * 65536⌋ := Int.floor_le_floor (by linarith)
    have : (⌊a * 65536⌋ : Rat) ≤ (⌊b * 65536⌋ : Rat) := by exact_mod_cast this
    linarith
  · intro n _
    have e : ((n : Rat) * 65536) = ((n * 65536 : Nat) : Rat) := by push_cast; rfl
    rw [e, Int.floor_natCast]
    push_cast
    ring
  · intro x _ _
    have l1 := Int.floor_le (x * 65536)
    have l2 := Int.lt_floor_add_one (x * 65536)
    rw [abs_le]
    constructor <;> linarith

/-- A 2 by 1 image with stride 3. -/
example : (SImg.mk false 2 1 3 [(10 : Byte), 200, 77]).ShowsGray 2 1 (fun x _ => if x = 0 then 10 else 200) := by
  refine ⟨⟨by decide, by decide⟩, rfl, rfl, rfl, ?_⟩
  intro x y hx hy
  have hy0 : y = 0 := by omega
  subst hy0
  have hx' : x = 0 ∨ x = 1 := by omega
  rcases hx' with rfl | rfl <;> rfl

example : (match convertType (fun _ => 9) 255 grayUc ⟨false, 2, 1, 3, [10, 200, 77]⟩ true with
    | .ok s => decide (s = ⟨true, 2, 1, 8, [10, 10, 10, 255, 200, 200, 200, 255]⟩)
    | _ => false) = true := by decide +kernel

example : (match ucToF32 id (fun _ => 9) ⟨false, 2, 1, 3, [10, 255, 77]⟩ with
    | .ok m => (match f32ToUc id (fun _ => 9) m with | .ok s => decide (m.data = [10/255, 1] ∧ s.data = [0, 0]) | _ => false)
    | _ => false) = true := by decide +kernel

/-- The last colour, one in the middle of the table, and one between two colours. -/
example : (match cmApply id .viridis 1, cmApply id .viridis (1 / 255), cmApply id .cubehelix (1 / 3) with
    | .ok a, .ok b, .ok c => decide (a = (253, 231, 36) ∧ b = (68, 2, 85) ∧ c = (43, 111, 57))
    | _, _, _ => false) = true := by decide +kernel

end Nx
