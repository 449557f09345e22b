import Verif.Lemmas.PnmCut
import Verif.Props.Getline

/-!
# Properties C47 and C55: image files and gray values
-/

namespace Nx

/-! ## C47: saving and loading -/

theorem Fits.gray {w h : Nat} (hw : w ≤ 2147483647) (hh : h ≤ 2147483647) (hsz : w * h ≤ 2147483647) :
    Fits false w h := by
  refine ⟨hw, hh, ?_, ?_⟩
  · simp only [channels, Bool.false_eq_true, if_false]; omega
  · simp only [channels, Bool.false_eq_true, if_false, Nat.one_mul]; exact hsz

theorem Fits.color {w h : Nat} (hh : h ≤ 2147483647) (hw : 4 * w ≤ 2147483647) (hsz : 4 * w * h ≤ 2147483647) :
    Fits true w h := by
  refine ⟨by omega, hh, ?_, ?_⟩
  · simp only [channels, if_true]; exact hw
  · simp only [channels, if_true]; exact hsz

theorem modeType_gray {mode : LoadMode} (h : mode ≠ .rgba) : modeType mode false = false := by
  cases mode with
  | rgba => exact absurd rfl h
  | gray => rfl
  | asIs => rfl

theorem modeType_color {mode : LoadMode} (h : mode ≠ .gray) : modeType mode true = true := by
  cases mode with
  | gray => exact absurd rfl h
  | rgba => rfl
  | asIs => rfl

theorem three_get {l : Bytes} {a : Nat} {r g b : Byte} (h0 : l[a + 0]? = some r) (h1 : l[a + 1]? = some g)
    (h2 : l[a + 2]? = some b) : (l.drop a).take 3 = [r, g, b] := by
  apply List.ext_getElem?
  intro i
  match i with
  | 0 => rw [take_drop_get (by omega), h0]; rfl
  | 1 => rw [take_drop_get (by omega), h1]; rfl
  | 2 => rw [take_drop_get (by omega), h2]; rfl
  | i + 3 =>
    rw [List.getElem?_eq_none (by rw [List.length_take]; omega)]
    rfl

theorem one_get {l : Bytes} {a : Nat} {r : Byte} (h0 : l[a]? = some r) : (l.drop a).take 1 = [r] := by
  apply List.ext_getElem?
  intro i
  match i with
  | 0 => rw [take_drop_get (by omega), Nat.add_zero, h0]; rfl
  | i + 1 =>
    rw [List.getElem?_eq_none (by rw [List.length_take]; omega)]
    rfl

/-- C47. A saved grayscale image, loaded by either loader as it is or as grayscale, has the
same size and the same pixels. Bytes behind the image data do not matter. -/
theorem c47_gray {img : UImg} {w h : Nat} {f : Nat → Nat → Byte} (hwf : img.Wf) (hs : img.ShowsGray w h f)
    (hw : w ≤ 2147483647) (hh : h ≤ 2147483647) (hsz : w * h ≤ 2147483647) :
    ∃ file, savePnm img = .ok file ∧ ∀ (junk : Nat → Byte) (mode : LoadMode) (tail : Bytes), mode ≠ .rgba →
      ∃ r, xloadPnm junk mode (file ++ tail) = .ok r ∧ loadPnm junk mode (file ++ tail) = .ok (some r) ∧ r.Wf ∧
        r.ShowsGray w h f := by
  obtain ⟨p, ep, hpl, hpc⟩ := savePnm_gray hwf hs.type_eq
  rw [hs.width_eq, hs.height_eq] at ep hpl
  refine ⟨_, ep, ?_⟩
  intro junk mode tail hm
  rw [List.append_assoc, xload_header hw hh, load_header hw hh, modeType_gray hm]
  obtain ⟨r, er, e1, e2, e3, e4, e5, e6⟩ := (readPnmData_spec junk (pnmRgba := false) (Fits.gray hw hh hsz) (p ++ tail)).2
    (by rw [List.length_append, hpl]; simp only [fileBytes, Bool.false_eq_true, if_false]; omega)
  rw [er]
  have ec : channels false = 1 := rfl
  rw [ec, Nat.one_mul] at e4
  refine ⟨r, rfl, rfl, ⟨by rw [e1]; simp only [Bool.false_eq_true, if_false]; omega, e5⟩, e1, e2, e3, ?_⟩
  intro x y hx hy
  have h1 := e6 x y 0 hx hy (by decide)
  rw [ec, Nat.one_mul, Nat.add_zero] at h1
  have ef : fileBytes false = 1 := rfl
  rw [ef, Nat.one_mul] at h1
  have h2 := hpc y x (by rw [hs.width_eq]; exact hx) (by rw [hs.height_eq]; exact hy)
  rw [hs.pixel_eq x y hx hy, hs.width_eq] at h2
  have h3 : (p ++ tail)[y * w + x]? = some (f x y) := by
    rw [List.getElem?_append_left, h2]
    rw [hpl]
    exact pixIdx_lt hx hy
  rw [one_get h3] at h1
  exact h1

/-- C47. Loaded as colour, it has the gray value in all three channels and an opaque alpha. -/
theorem c47_gray_as_color {img : UImg} {w h : Nat} {f : Nat → Nat → Byte} (hwf : img.Wf) (hs : img.ShowsGray w h f)
    (hw : 4 * w ≤ 2147483647) (hh : h ≤ 2147483647) (hsz : 4 * w * h ≤ 2147483647) :
    ∃ file, savePnm img = .ok file ∧ ∀ (junk : Nat → Byte) (tail : Bytes),
      ∃ r, xloadPnm junk .rgba (file ++ tail) = .ok r ∧ loadPnm junk .rgba (file ++ tail) = .ok (some r) ∧ r.Wf ∧
        r.ShowsColor w h (fun x y _ => f x y) (fun _ _ => 255) := by
  obtain ⟨p, ep, hpl, hpc⟩ := savePnm_gray hwf hs.type_eq
  rw [hs.width_eq, hs.height_eq] at ep hpl
  refine ⟨_, ep, ?_⟩
  intro junk tail
  rw [List.append_assoc, xload_header (by omega) hh, load_header (by omega) hh]
  simp only [modeType]
  obtain ⟨r, er, e1, e2, e3, e4, e5, e6⟩ := (readPnmData_spec junk (pnmRgba := false) (Fits.color hh hw hsz) (p ++ tail)).2
    (by rw [List.length_append, hpl]; simp only [fileBytes, Bool.false_eq_true, if_false]; omega)
  rw [er]
  have ec : channels true = 4 := rfl
  rw [ec] at e4
  have hpix : ∀ x y c, x < w → y < h → c < 4 → r.chan x y c = [f x y, f x y, f x y, 255][c]? := by
    intro x y c hx hy hc
    have h1 := e6 x y c hx hy hc
    have ef : fileBytes false = 1 := rfl
    rw [ec, ef, Nat.one_mul] at h1
    have h2 := hpc y x (by rw [hs.width_eq]; exact hx) (by rw [hs.height_eq]; exact hy)
    rw [hs.pixel_eq x y hx hy, hs.width_eq] at h2
    have h3 : (p ++ tail)[y * w + x]? = some (f x y) := by
      rw [List.getElem?_append_left, h2]
      rw [hpl]
      exact pixIdx_lt hx hy
    rw [one_get h3] at h1
    exact h1
  refine ⟨r, rfl, rfl, ⟨by rw [e1]; simp only [if_true]; omega, e5⟩, e1, e2, e3, ?_, ?_⟩
  · intro x y c hx hy hc
    rw [hpix x y c hx hy (by omega)]
    match c, hc with
    | 0, _ => rfl
    | 1, _ => rfl
    | 2, _ => rfl
  · intro x y hx hy
    rw [hpix x y 3 hx hy (by omega)]
    rfl

/-- The three bytes of one pixel in a saved colour image. -/
theorem color_bytes {img : UImg} {w h : Nat} {f : Nat → Nat → Nat → Byte} {a : Nat → Nat → Byte}
    (hs : img.ShowsColor w h f a) {p tail : Bytes} (hpl : p.length = 3 * (w * h))
    (hpc : ∀ y x c, x < img.width → y < img.height → c < 3 → p[3 * (y * img.width + x) + c]? = img.chan x y c)
    {x y : Nat} (hx : x < w) (hy : y < h) :
    ((p ++ tail).drop (3 * (y * w + x))).take 3 = [f x y 0, f x y 1, f x y 2] := by
  have hlt : y * w + x < w * h := pixIdx_lt hx hy
  have hc : ∀ c, c < 3 → (p ++ tail)[3 * (y * w + x) + c]? = some (f x y c) := by
    intro c hc
    rw [List.getElem?_append_left (by omega)]
    have := hpc y x c (by rw [hs.width_eq]; exact hx) (by rw [hs.height_eq]; exact hy) hc
    rw [hs.pixel_eq x y c hx hy hc, hs.width_eq] at this
    exact this
  exact three_get (hc 0 (by omega)) (hc 1 (by omega)) (hc 2 (by omega))

/-- C47. A saved colour image, loaded by either loader as it is or as colour, has the same
size and colours, with an opaque alpha. -/
theorem c47_color {img : UImg} {w h : Nat} {f : Nat → Nat → Nat → Byte} {a : Nat → Nat → Byte} (hwf : img.Wf)
    (hs : img.ShowsColor w h f a) (hw : 4 * w ≤ 2147483647) (hh : h ≤ 2147483647) (hsz : 4 * w * h ≤ 2147483647) :
    ∃ file, savePnm img = .ok file ∧ ∀ (junk : Nat → Byte) (mode : LoadMode) (tail : Bytes), mode ≠ .gray →
      ∃ r, xloadPnm junk mode (file ++ tail) = .ok r ∧ loadPnm junk mode (file ++ tail) = .ok (some r) ∧ r.Wf ∧
        r.ShowsColor w h f (fun _ _ => 255) := by
  obtain ⟨p, ep, hpl, hpc⟩ := savePnm_color hwf hs.type_eq
  rw [hs.width_eq, hs.height_eq] at ep hpl
  refine ⟨_, ep, ?_⟩
  intro junk mode tail hm
  rw [List.append_assoc, xload_header (by omega) hh, load_header (by omega) hh, modeType_color hm]
  obtain ⟨r, er, e1, e2, e3, e4, e5, e6⟩ := (readPnmData_spec junk (pnmRgba := true) (Fits.color hh hw hsz) (p ++ tail)).2
    (by rw [List.length_append, hpl]; simp only [fileBytes, if_true]; omega)
  rw [er]
  have ec : channels true = 4 := rfl
  rw [ec] at e4
  have hpix : ∀ x y c, x < w → y < h → c < 4 → r.chan x y c = [f x y 0, f x y 1, f x y 2, 255][c]? := by
    intro x y c hx hy hc
    have h1 := e6 x y c hx hy hc
    have ef : fileBytes true = 3 := rfl
    rw [ec, ef, color_bytes hs hpl hpc hx hy] at h1
    exact h1
  refine ⟨r, rfl, rfl, ⟨by rw [e1]; simp only [if_true]; omega, e5⟩, e1, e2, e3, ?_, ?_⟩
  · intro x y c hx hy hc
    rw [hpix x y c hx hy (by omega)]
    match c, hc with
    | 0, _ => rfl
    | 1, _ => rfl
    | 2, _ => rfl
  · intro x y hx hy
    rw [hpix x y 3 hx hy (by omega)]
    rfl

/-- C47. Loaded as grayscale, every pixel is the gray value of its colour. -/
theorem c47_color_as_gray {img : UImg} {w h : Nat} {f : Nat → Nat → Nat → Byte} {a : Nat → Nat → Byte} (hwf : img.Wf)
    (hs : img.ShowsColor w h f a) (hw : w ≤ 2147483647) (hh : h ≤ 2147483647) (hsz : w * h ≤ 2147483647) :
    ∃ file, savePnm img = .ok file ∧ ∀ (junk : Nat → Byte) (tail : Bytes),
      ∃ r, xloadPnm junk .gray (file ++ tail) = .ok r ∧ loadPnm junk .gray (file ++ tail) = .ok (some r) ∧ r.Wf ∧
        r.ShowsGray w h (fun x y => grayUc (f x y 0) (f x y 1) (f x y 2)) := by
  obtain ⟨p, ep, hpl, hpc⟩ := savePnm_color hwf hs.type_eq
  rw [hs.width_eq, hs.height_eq] at ep hpl
  refine ⟨_, ep, ?_⟩
  intro junk tail
  rw [List.append_assoc, xload_header hw hh, load_header hw hh]
  simp only [modeType]
  obtain ⟨r, er, e1, e2, e3, e4, e5, e6⟩ := (readPnmData_spec junk (pnmRgba := true) (Fits.gray hw hh hsz) (p ++ tail)).2
    (by rw [List.length_append, hpl]; simp only [fileBytes, if_true]; omega)
  rw [er]
  have ec : channels false = 1 := rfl
  rw [ec, Nat.one_mul] at e4
  refine ⟨r, rfl, rfl, ⟨by rw [e1]; simp only [Bool.false_eq_true, if_false]; omega, e5⟩, e1, e2, e3, ?_⟩
  intro x y hx hy
  have h1 := e6 x y 0 hx hy (by decide)
  have ef : fileBytes true = 3 := rfl
  rw [ec, Nat.one_mul, Nat.add_zero, ef, color_bytes hs hpl hpc hx hy] at h1
  exact h1

/-- C47. A file cut anywhere, in its header or its data, is rejected by both loaders. -/
theorem c47_cut {img : UImg} (hwf : img.Wf) {file : Bytes} (hfile : savePnm img = .ok file) (junk : Nat → Byte)
    (mode : LoadMode) (hpos : 0 < img.width * img.height) (hw : 4 * img.width ≤ 2147483647)
    (hh : img.height ≤ 2147483647) (hsz : 4 * img.width * img.height ≤ 2147483647) {k : Nat} (hk : k < file.length) :
    xloadPnm junk mode (file.take k) = .fatal ∧ loadPnm junk mode (file.take k) = .ok none := by
  have hsz' : img.width * img.height ≤ 2147483647 := by
    rw [Nat.mul_assoc] at hsz
    omega
  have hfit : ∀ b, Fits b img.width img.height := by
    intro b
    cases b with
    | false => exact Fits.gray (by omega) hh hsz'
    | true => exact Fits.color hh hw hsz
  have hkey : ∃ p, file = pnmHeader img.rgba img.width img.height ++ p ∧
      p.length = fileBytes img.rgba * (img.width * img.height) := by
    cases ht : img.rgba with
    | false =>
      obtain ⟨p, e, hl, _⟩ := savePnm_gray hwf ht
      rw [hfile] at e
      injection e with e
      exact ⟨p, e, by rw [hl]; simp only [fileBytes, Bool.false_eq_true, if_false, Nat.one_mul]⟩
    | true =>
      obtain ⟨p, e, hl, _⟩ := savePnm_color hwf ht
      rw [hfile] at e
      injection e with e
      exact ⟨p, e, by rw [hl]; simp only [fileBytes, if_true]⟩
  obtain ⟨p, rfl, hl⟩ := hkey
  apply cut_rejected (hfit _) hpos hl (List.take_prefix _ _)
  rw [List.length_take]
  omega

/-- A colour image with padding at the end of its only row. -/
example : savePnm ⟨true, 1, 1, 5, [1, 2, 3, 4, 9]⟩ = .ok ([80, 54, 10, 49, 32, 49, 10, 50, 53, 53, 10] ++ [1, 2, 3]) ∧
    loadPnm (fun _ => 7) .asIs ([80, 54, 10, 49, 32, 49, 10, 50, 53, 53, 10] ++ [1, 2, 3]) =
      .ok (some ⟨true, 1, 1, 4, [1, 2, 3, 255]⟩) ∧
    xloadPnm (fun _ => 7) .gray ([80, 53, 10, 49, 32, 50, 32, 50, 53, 53, 10] ++ [10, 35]) =
      .ok ⟨false, 1, 2, 1, [10, 35]⟩ := by decide +kernel

example : (⟨true, 1, 1, 5, [1, 2, 3, 4, 9]⟩ : UImg).Wf ∧
    (⟨true, 1, 1, 5, [1, 2, 3, 4, 9]⟩ : UImg).ShowsColor 1 1 (fun _ _ c => UInt8.ofNat (c + 1)) (fun _ _ => 4) := by
  refine ⟨⟨by decide, by decide⟩, rfl, rfl, rfl, ?_, ?_⟩
  · intro x y c hx hy hc
    have hx0 : x = 0 := by omega
    have hy0 : y = 0 := by omega
    subst hx0 hy0
    match c, hc with
    | 0, _ => rfl
    | 1, _ => rfl
    | 2, _ => rfl
  · intro x y hx hy
    have hx0 : x = 0 := by omega
    have hy0 : y = 0 := by omega
    subst hx0 hy0
    rfl

/-! ## C55: gray values -/

theorem gray_core {r g b R G B S T : Nat} (hr : r < 256) (hg : g < 256) (hb : b < 256)
    (h1 : 16777215 * (r * 40265320) ≤ 16777216 * R ∧ 16777216 * R ≤ 16777217 * (r * 40265320))
    (h2 : 16777215 * (g * 79188456) ≤ 16777216 * G ∧ 16777216 * G ≤ 16777217 * (g * 79188456))
    (h3 : 16777215 * (b * 14763950) ≤ 16777216 * B ∧ 16777216 * B ≤ 16777217 * (b * 14763950))
    (h4 : 16777215 * (R + G) ≤ 16777216 * S ∧ 16777216 * S ≤ 16777217 * (R + G))
    (h5 : 16777215 * (S + B) ≤ 16777216 * T ∧ 16777216 * T ≤ 16777217 * (S + B)) :
    T / 134217728 ≤ 255 ∧ (T / 134217728 = (30 * r + 59 * g + 11 * b) / 100 ∨
      ((30 * r + 59 * g + 11 * b) % 100 = 0 ∧ T / 134217728 + 1 = (30 * r + 59 * g + 11 * b) / 100)) := by
  have ha : 100 * T < 134217728 * (30 * r + 59 * g + 11 * b + 1) := by omega
  have hc : 134217728 * (30 * r + 59 * g + 11 * b) < 100 * T + 134217728 := by omega
  omega

/-- C55. The gray value of a colour is the mean of its channels with weights 0.30, 0.59 and
0.11, rounded down, except that it may be one less when the mean is an integer. -/
theorem c55_gray_partial (r g b : Byte) :
    (grayUc r g b).toNat = (30 * r.toNat + 59 * g.toNat + 11 * b.toNat) / 100 ∨
      ((30 * r.toNat + 59 * g.toNat + 11 * b.toNat) % 100 = 0 ∧
        (grayUc r g b).toNat + 1 = (30 * r.toNat + 59 * g.toNat + 11 * b.toNat) / 100) := by
  have hr := r.toNat_lt
  have hg := g.toNat_lt
  have hb := b.toNat_lt
  obtain ⟨hv, h⟩ := gray_core hr hg hb (round24_bounds _) (round24_bounds _) (round24_bounds _)
    (round24_bounds (round24 (r.toNat * 40265320) + round24 (g.toNat * 79188456)))
    (round24_bounds (round24 (round24 (r.toNat * 40265320) + round24 (g.toNat * 79188456))
      + round24 (b.toNat * 14763950)))
  have e : (grayUc r g b).toNat = round24 (round24 (round24 (r.toNat * 40265320) + round24 (g.toNat * 79188456))
      + round24 (b.toNat * 14763950)) / 134217728 := by
    unfold grayUc
    simp only
    rw [if_neg (Nat.not_lt.mpr hv), UInt8.toNat_ofNat', Nat.mod_eq_of_lt (Nat.lt_succ_of_le hv)]
  rw [e]
  exact h

/-- C55 fails: the gray value of the gray colour 7 is 6. -/
theorem c55_gray_changes : grayUc 7 7 7 = 6 := by decide +kernel

/-- C55. Black and white stay. -/
theorem c55_black_white : grayUc 0 0 0 = 0 ∧ grayUc 255 255 255 = 255 := by decide +kernel

/-- C55 fails for files: a gray image saved, loaded as colour, saved and loaded as
grayscale need not have its pixels. -/
theorem c55_file_changes : ∃ f1 c f2,
    savePnm ⟨false, 1, 1, 1, [7]⟩ = .ok f1 ∧ loadPnm (fun _ => 0) .rgba f1 = .ok (some c) ∧ savePnm c = .ok f2 ∧
      loadPnm (fun _ => 0) .gray f2 = .ok (some ⟨false, 1, 1, 1, [6]⟩) := by
  refine ⟨[80, 53, 10, 49, 32, 49, 32, 50, 53, 53, 10, 7], ⟨true, 1, 1, 4, [7, 7, 7, 255]⟩,
    [80, 54, 10, 49, 32, 49, 10, 50, 53, 53, 10, 7, 7, 7], ?_⟩
  decide +kernel

end Nx
