import Verif.Lemmas.Pnm

/-!
# Lemmas about loading image files
-/

namespace Nx

theorem intText_nat (n : Nat) : intText (n : Int) = natText n := by
  unfold intText
  rw [if_neg (by omega), Int.natAbs_natCast]

/-! ## Pixels -/

/-- The size of a type of image fits `int`. -/
def Fits (rgba : Bool) (w h : Nat) : Prop :=
  w ≤ 2147483647 ∧ h ≤ 2147483647 ∧ channels rgba * w ≤ 2147483647 ∧ channels rgba * w * h ≤ 2147483647

theorem uResize_ok {junk : Nat → Byte} {rgba : Bool} {w h : Nat} (hf : Fits rgba w h) :
    ∃ img, uResize junk rgba w h = .ok img ∧ img.rgba = rgba ∧ img.width = w ∧ img.height = h ∧
      img.stride = channels rgba * w ∧ img.data.length = img.stride * img.height := by
  refine ⟨⟨rgba, w, h, channels rgba * w, (List.range (channels rgba * w * h)).map junk⟩, ?_, rfl, rfl, rfl, rfl, ?_⟩
  · unfold uResize
    rw [if_neg (by omega)]
    simp only [Int.toNat_natCast]
    rw [if_pos ⟨hf.2.2.1, hf.2.2.2⟩]
  · simp

/-- Number of bytes of one pixel in a file. -/
def fileBytes (pnmRgba : Bool) : Nat := if pnmRgba then 3 else 1

/-- The channels made of the bytes of one pixel. -/
def pixelConv (pnmRgba rgba : Bool) : Bytes → Bytes :=
  match pnmRgba, rgba with
  | false, false => id
  | false, true => grayToRgba
  | true, false => rgbToGray
  | true, true => rgbToRgba

theorem pixelConv_length (pnmRgba rgba : Bool) {b : Bytes} (h : b.length = fileBytes pnmRgba) :
    (pixelConv pnmRgba rgba b).length = channels rgba := by
  cases pnmRgba with
  | false =>
    match b, h with
    | [v], _ => cases rgba <;> rfl
  | true =>
    match b, h with
    | [x, y, z], _ => cases rgba <;> rfl

theorem take_drop_get {l : Bytes} {k c a : Nat} (hc : c < k) : ((l.drop a).take k)[c]? = l[a + c]? := by
  rw [List.getElem?_take_of_lt hc, List.getElem?_drop]

/-- Reading the pixels: short files fail, otherwise every pixel is the conversion of its bytes. -/
theorem readPnmData_spec (junk : Nat → Byte) {rgba pnmRgba : Bool} {w h : Nat} (hf : Fits rgba w h) (rest : Bytes) :
    (rest.length < fileBytes pnmRgba * (w * h) → readPnmData junk rgba w h pnmRgba rest = .ok none) ∧
    (fileBytes pnmRgba * (w * h) ≤ rest.length → ∃ img, readPnmData junk rgba w h pnmRgba rest = .ok (some img) ∧
      img.rgba = rgba ∧ img.width = w ∧ img.height = h ∧ img.stride = channels rgba * w ∧
      img.data.length = img.stride * img.height ∧
      ∀ x y c, x < w → y < h → c < channels rgba → img.data[y * img.stride + (channels rgba * x + c)]? =
        (pixelConv pnmRgba rgba ((rest.drop (fileBytes pnmRgba * (y * w + x))).take (fileBytes pnmRgba)))[c]?) := by
  obtain ⟨img, er, et, ew, eh, es, el⟩ := uResize_ok (junk := junk) hf
  have hmain : ∃ s, readPixels img pnmRgba (some (img.data, rest)) = .ok s ∧
      ((rest.length < fileBytes pnmRgba * (w * h) → s = none) ∧
      (fileBytes pnmRgba * (w * h) ≤ rest.length → ∃ d t, s = some (d, t) ∧ d.length = img.stride * img.height ∧
        ∀ x y c, x < w → y < h → c < channels rgba → d[y * img.stride + (channels rgba * x + c)]? =
        (pixelConv pnmRgba rgba ((rest.drop (fileBytes pnmRgba * (y * w + x))).take (fileBytes pnmRgba)))[c]?)) := by
    have pixels : ∀ (k m : Nat) (conv : Bytes → Bytes), k = fileBytes pnmRgba → m = channels rgba →
        conv = pixelConv pnmRgba rgba →
        ∃ s, forLoop img.height (fun y s => forLoop img.width (fun u s => loadUnit k conv (y * img.stride + m * u) s) 0 s)
          0 (some (img.data, rest)) = .ok s ∧
        ((rest.length < fileBytes pnmRgba * (w * h) → s = none) ∧
        (fileBytes pnmRgba * (w * h) ≤ rest.length → ∃ d t, s = some (d, t) ∧ d.length = img.stride * img.height ∧
          ∀ x y c, x < w → y < h → c < channels rgba → d[y * img.stride + (channels rgba * x + c)]? =
          (pixelConv pnmRgba rgba ((rest.drop (fileBytes pnmRgba * (y * w + x))).take (fileBytes pnmRgba)))[c]?)) := by
      intro k m conv hk hm hc
      subst hk hm hc
      obtain ⟨s, e, hL⟩ := loadLoop_spec (rest0 := rest) (conv := pixelConv pnmRgba rgba) (st := img.stride)
        (H := img.height) (k := fileBytes pnmRgba) (m := channels rgba) (U := img.width) el
        (fun b hb => pixelConv_length pnmRgba rgba hb) (by rw [es, ew]; exact Nat.le_refl _)
      refine ⟨s, e, ?_, ?_⟩
      · intro hlt
        rcases hL with ⟨h1, _⟩ | ⟨_, h1⟩
        · rw [eh, ew, Nat.add_zero, Nat.mul_comm h w] at h1
          omega
        · exact h1
      · intro hle
        rcases hL with ⟨_, d, h1, h2, h3⟩ | ⟨h1, _⟩
        · refine ⟨d, _, h1, h2, ?_⟩
          intro x y c hx hy hc
          have := h3 y x c (by omega) hc (by omega)
          rw [ew] at this
          exact this
        · rw [eh, ew, Nat.add_zero, Nat.mul_comm h w] at h1
          omega
    unfold readPixels
    rw [et]
    cases pnmRgba with
    | false =>
      cases rgba with
      | false =>
        simp only
        have e1 : channels false = 1 := rfl
        have e2 : fileBytes false = 1 := rfl
        obtain ⟨s, e, hL⟩ := loadRows_spec (rest0 := rest) (conv := id) (st := img.stride) (H := img.height)
          (k := img.width) (m := img.width) el (fun b hb => hb) (by rw [es, ew, e1]; omega)
        refine ⟨s, e, ?_, ?_⟩
        · intro hlt
          rw [e2, Nat.one_mul] at hlt
          rcases hL with ⟨h1, _⟩ | ⟨_, h1⟩
          · rw [eh, ew, Nat.add_zero, Nat.mul_one] at h1
            omega
          · exact h1
        · intro hle
          rw [e2, Nat.one_mul] at hle
          rcases hL with ⟨_, d, h1, h2, h3⟩ | ⟨h1, _⟩
          · refine ⟨d, _, h1, h2, ?_⟩
            intro x y c hx hy hc
            rw [e1] at hc ⊢
            have hc0 : c = 0 := by omega
            subst hc0
            have := h3 y 0 x (by omega) (by omega) (by omega)
            rw [Nat.mul_zero, Nat.zero_add, ew, Nat.mul_one, Nat.add_zero] at this
            rw [Nat.one_mul, Nat.add_zero, this, e2]
            simp only [id_eq, pixelConv]
            rw [take_drop_get hx, take_drop_get (by omega), Nat.one_mul, Nat.add_zero, Nat.mul_comm w y]
          · rw [eh, ew, Nat.add_zero, Nat.mul_one] at h1
            omega
      | true => exact pixels 1 4 grayToRgba rfl rfl rfl
    | true =>
      cases rgba with
      | false =>
        have := pixels 3 1 rgbToGray rfl rfl rfl
        simp only [Nat.one_mul] at this
        exact this
      | true => exact pixels 3 4 rgbToRgba rfl rfl rfl
  obtain ⟨s, es', h1, h2⟩ := hmain
  unfold readPnmData
  rw [er]
  simp only [Res.ok_bind]
  rw [es']
  simp only [Res.ok_bind]
  constructor
  · intro hlt
    rw [h1 hlt]
    rfl
  · intro hle
    obtain ⟨d, t, rfl, h3, h4⟩ := h2 hle
    exact ⟨{ img with data := d }, rfl, et, ew, eh, es, h3, h4⟩

/-! ## Header -/

/-- What follows the two characters of the magic number. -/
def pnmAttrs (rgba : Bool) (w h : Nat) (r : Bytes) : Bytes :=
  intText w ++ 32 :: (intText h ++ (if rgba then 10 else 32) :: (intText 255 ++ 10 :: r))

theorem pnmHeader_eq (rgba : Bool) (w h : Nat) (r : Bytes) :
    pnmHeader rgba w h ++ r = 80 :: (if rgba then 54 else 53) :: 10 :: pnmAttrs rgba w h r := by
  cases rgba <;> simp [pnmHeader, pnmAttrs]

theorem pnmMagic_eq (rgba : Bool) (r : Bytes) : pnmMagic (80 :: (if rgba then 54 else 53) :: r) = some (rgba, r) := by
  cases rgba <;> rfl

theorem scan3_attrs {rgba : Bool} {w h : Nat} (hw : w ≤ 2147483647) (hh : h ≤ 2147483647) {ws : Bytes}
    (hws : ∀ b ∈ ws, isSpaceB b = true) (r : Bytes) :
    scan3 (ws ++ pnmAttrs rgba w h r) = .ok (some (((w : Int), (h : Int), 255), 10 :: r)) := by
  unfold pnmAttrs
  exact scan3_header hw hh hws (by cases rgba <;> simp) r

/-- The white space before the numbers is skipped, and no comment starts there. -/
theorem skip_digit {d : Nat} (hd : d < 10) (r : Bytes) :
    (10 :: UInt8.ofNat (48 + d) :: r).dropWhile isPnmSpace = UInt8.ofNat (48 + d) :: r ∧
      skipComments (UInt8.ofNat (48 + d) :: r) = .ok (UInt8.ofNat (48 + d) :: r) := by
  have hn : ∀ b : Byte, b.toNat < 48 → UInt8.ofNat (48 + d) ≠ b := by
    intro b hb e
    have := congrArg UInt8.toNat e
    rw [digitByte_toNat hd] at this
    omega
  constructor
  · rw [List.dropWhile_cons, if_pos (by rfl), List.dropWhile_cons, if_neg]
    simp only [isPnmSpace, Bool.or_eq_true, beq_iff_eq, not_or]
    exact ⟨⟨hn 32 (by decide), hn 10 (by decide)⟩, hn 9 (by decide)⟩
  · rw [skipComments, if_neg]
    simp only [List.head?_cons, Option.some.injEq]
    exact hn 35 (by decide)

theorem xload_header {junk : Nat → Byte} {mode : LoadMode} {rgba : Bool} {w h : Nat} (hw : w ≤ 2147483647)
    (hh : h ≤ 2147483647) (r : Bytes) :
    xloadPnm junk mode (pnmHeader rgba w h ++ r) =
      (readPnmData junk (modeType mode rgba) w h rgba r >>= orFatal) := by
  obtain ⟨d, t, hd, et⟩ := natText_cons w
  have e0 : pnmAttrs rgba w h r = UInt8.ofNat (48 + d) ::
      (t ++ 32 :: (intText h ++ (if rgba then 10 else 32) :: (intText 255 ++ 10 :: r))) := by
    unfold pnmAttrs
    rw [intText_nat w, et, List.cons_append]
  obtain ⟨h1, h2⟩ := skip_digit hd (t ++ 32 :: (intText h ++ (if rgba then 10 else 32) :: (intText 255 ++ 10 :: r)))
  rw [← e0] at h1 h2
  unfold xloadPnm
  rw [pnmHeader_eq, pnmMagic_eq]
  simp only [xloadBody]
  rw [h1, h2]
  simp only [Res.ok_bind]
  have h3 := scan3_attrs (rgba := rgba) hw hh (ws := []) (by simp) r
  rw [List.nil_append] at h3
  rw [h3]
  simp only [Res.ok_bind, xloadData, List.drop_succ_cons, List.drop_zero]

theorem fgets256_newline (r : Bytes) : fgets256 (10 :: r) = some r := by
  unfold fgets256
  rw [if_neg (by simp)]
  simp

theorem load_header {junk : Nat → Byte} {mode : LoadMode} {rgba : Bool} {w h : Nat} (hw : w ≤ 2147483647)
    (hh : h ≤ 2147483647) (r : Bytes) :
    loadPnm junk mode (pnmHeader rgba w h ++ r) = readPnmData junk (modeType mode rgba) w h rgba r := by
  unfold loadPnm
  rw [pnmHeader_eq, pnmMagic_eq]
  simp only [loadBody]
  have h3 := scan3_attrs (rgba := rgba) hw hh (ws := [10]) (by simp; decide) r
  rw [List.singleton_append] at h3
  rw [h3]
  simp only [Res.ok_bind, loadData, fgets256_newline, loadRest]

end Nx
