import Verif.Spec.PngJpeg
import Verif.Lemmas.PnmLoad
import Verif.Lemmas.Ledger

/-!
# C113: PNG and JPEG files
-/

namespace Nx

theorem flatMap_uniform {α : Type} {w k : Nat} {g : Nat → List α} (hg : ∀ x, (g x).length = k) :
    ((List.range w).flatMap g).length = k * w ∧
      ∀ x c, x < w → c < k → ((List.range w).flatMap g)[k * x + c]? = (g x)[c]? := by
  induction w with
  | zero => simp
  | succ w ih =>
    obtain ⟨h1, h2⟩ := ih
    rw [List.range_succ, List.flatMap_append, List.flatMap_singleton]
    refine ⟨by rw [List.length_append, h1, hg, Nat.mul_succ], ?_⟩
    intro x c hx hc
    by_cases hx' : x < w
    · have : k * x + k ≤ k * w := by
        rw [← Nat.mul_succ]
        exact Nat.mul_le_mul_left k hx'
      rw [List.getElem?_append_left (by omega)]
      exact h2 x c hx' hc
    · have hxw : x = w := by omega
      subst hxw
      rw [List.getElem?_append_right (by omega), h1, Nat.add_sub_cancel_left]

theorem rows_ok {row : Nat → Bytes} {stride n : Nat} {d : Bytes} {k : Nat} (hk : k ≤ stride)
    (hl : ∀ y, (row y).length = k) (hd : stride * n ≤ d.length) :
    ∃ d', forLoop n (fun y d => writeBlock d (y * stride) (row y)) 0 d = .ok d' ∧ d'.length = d.length ∧
      ∀ y c, y < n → c < k → d'[y * stride + c]? = (row y)[c]? := by
  obtain ⟨d', e, h1, h2⟩ := forLoop_spec (fun i d' => d'.length = d.length ∧
      ∀ y c, y < i → c < k → d'[y * stride + c]? = (row y)[c]?) (n := n)
    (body := fun y d => writeBlock d (y * stride) (row y)) (s := d) (Nat.zero_le n) ⟨rfl, by omega⟩ (by
    rintro i s - hi ⟨h1, h2⟩
    have hb : i * stride + stride ≤ d.length := by
      refine Nat.le_trans ?_ hd
      rw [← Nat.succ_mul, Nat.mul_comm]
      exact Nat.mul_le_mul_left stride hi
    have hb' : i * stride + (row i).length ≤ s.length := by rw [hl, h1]; omega
    refine ⟨_, writeBlock_ok _ hb', ?_, ?_⟩
    · simp only [List.length_append, List.length_take, List.length_drop]
      omega
    · intro y c hy hc
      rw [getElem?_writeBlock hb', hl]
      by_cases hyi : y = i
      · subst hyi
        rw [if_pos (by omega), Nat.add_sub_cancel_left]
      · have : y * stride + stride ≤ i * stride := by
          rw [← Nat.succ_mul]
          exact Nat.mul_le_mul_right stride (by omega)
        rw [if_neg (by omega)]
        exact h2 y c (by omega) hc)
  exact ⟨d', e, h1, h2⟩

theorem forLoop_upto {σ : Type} {n k : Nat} {body : Nat → σ → Res σ} {s s' : σ} (i0 : Nat) (hi : i0 ≤ k) (hk : k ≤ n)
    (h : forLoop k body i0 s = .ok s') : forLoop n body i0 s = forLoop n body k s' := by
  induction hm : k - i0 generalizing i0 s with
  | zero =>
    have : i0 = k := by omega
    subst this
    rw [forLoop, if_neg (Nat.lt_irrefl _)] at h
    rw [Res.ok.inj h]
  | succ m ih =>
    rw [forLoop, if_pos (by omega), Res.bind_eq_ok] at h
    obtain ⟨t, et, h⟩ := h
    rw [forLoop, if_pos (by omega), et, Res.ok_bind]
    exact ih (i0 + 1) (by omega) h (by omega)

theorem pngPix_want (lum : Byte → Byte → Byte → Byte) (mode : LoadMode) (file : PngFile)
    (hb : ¬ PngBad mode file.colour file.trns) (y x : Nat) :
    (pngTransform lum (pngSetup mode file.colour).1 (pngExpand file.colour file.trns (file.px y x))).bytes =
      file.want lum (pngSetup mode file.colour).2 y x := by
  unfold PngBad at hb
  unfold PngFile.want PngFile.alpha
  cases mode <;> cases hc : file.colour <;> cases ht : file.trns <;>
    simp_all [pngSetup, pngExpand, pngTransform, pngStrip, pngToGray, pngToRgb, pngFill, PngPix.bytes, PngColour.isColour]

theorem pngSetup_type (mode : LoadMode) (c : PngColour) : (pngSetup mode c).2 = wantRgba mode c.isColour := by
  cases mode <;> cases c <;> rfl

theorem want_length (lum : Byte → Byte → Byte → Byte) (file : PngFile) (rgba : Bool) (y x : Nat) :
    (file.want lum rgba y x).length = channels rgba := by
  unfold PngFile.want
  cases rgba <;> cases file.colour.isColour <;> rfl

theorem pngTarget_ok (junk : Nat → Byte) {img : UImg} (hw : img.Wf) (file : PngFile) {rgba : Bool}
    (hf : Fits rgba file.width file.height) :
    ∃ img', pngTarget junk img file rgba = .ok img' ∧ img'.rgba = rgba ∧ img'.width = file.width ∧
      img'.height = file.height ∧ channels rgba * file.width ≤ img'.stride ∧
      img'.data.length = img'.stride * img'.height := by
  unfold pngTarget
  split
  · obtain ⟨img', e, h1, h2, h3, h4, h5⟩ := uResize_ok (junk := junk) hf
    exact ⟨img', e, h1, h2, h3, Nat.le_of_eq h4.symm, h5⟩
  · next h =>
    have h' : file.width = img.width ∧ file.height = img.height ∧ rgba = img.rgba := by
      refine ⟨?_, ?_, ?_⟩ <;> (apply Decidable.byContradiction; intro hn; exact h (by simp [hn]))
    obtain ⟨a, b, c⟩ := h'
    refine ⟨img, rfl, c.symm, a.symm, b.symm, ?_, hw.length_eq⟩
    have := hw.stride_ge
    rw [a, c, channels]
    cases hr : img.rgba <;> simp [hr] at this ⊢ <;> omega

/-- A PNG file that can be read, of any colour type but the two bad kinds, gives an image of the wanted type with the pixels
of the file, whatever image it is read to; all memory but that of the image is freed. -/
theorem c113_png_partial (lum : Byte → Byte → Byte → Byte) (junk : Nat → Byte) {σ : Mem} {l : List Nat} (mode : LoadMode)
    (file : PngFile) {img : UImg} (hw : img.Wf) (hh : file.header = true) (hr : file.height ≤ file.rows)
    (hf : Fits (wantRgba mode file.colour.isColour) file.width file.height)
    (hb : ¬ PngBad mode file.colour file.trns) (h : Owns σ l) :
    ∃ σ' img', loadPng8 lum junk σ mode file img = .ok (σ', img', true) ∧ Owns σ' l ∧
      img'.Shows (wantRgba mode file.colour.isColour) file.width file.height
        (file.want lum (wantRgba mode file.colour.isColour)) := by
  have h3 := alloc_owns (alloc_owns (alloc_owns h))
  obtain ⟨σ4, e4, h4⟩ := free_owns (p := (memAlloc (memAlloc σ).1).2)
    (l := (memAlloc (memAlloc (memAlloc σ).1).1).2 :: (memAlloc σ).2 :: l) (h3.swap (by
      intro q
      simp only [List.count_cons]
      omega))
  obtain ⟨σ5, e5, h5⟩ := free_owns (p := (memAlloc σ).2) (l := (memAlloc (memAlloc (memAlloc σ).1).1).2 :: l) (h4.swap (by
      intro q
      simp only [List.count_cons]
      omega))
  obtain ⟨σ6, e6, h6⟩ := free_owns h5
  rw [← pngSetup_type] at hf ⊢
  obtain ⟨im, et, t1, t2, t3, t4, t5⟩ := pngTarget_ok junk hw file hf
  have hlen : ∀ y, (pngRow lum (pngSetup mode file.colour).1 file y).length =
      channels (pngSetup mode file.colour).2 * file.width := by
    intro y
    refine (flatMap_uniform ?_).1
    intro x
    rw [pngPix_want lum mode file hb, want_length]
  obtain ⟨d, ed, d1, d2⟩ := rows_ok (stride := im.stride) (n := im.height) (d := im.data) t4 hlen (by omega)
  refine ⟨σ6, { im with data := d }, ?_, h6, t1, t2, t3, ⟨?_, by rw [d1]; exact t5⟩, ?_⟩
  · rw [loadPng8]
    simp only
    rw [if_neg (by simp [hh]), et, Res.ok_bind, Nat.min_eq_right (by omega), pngRows, ed, Res.ok_bind, e4, Res.ok_bind, e5,
      Res.ok_bind, if_neg (by omega), e6]
    rfl
  · show (if im.rgba then 4 * im.width else im.width) ≤ im.stride
    rw [t1, t2]
    cases hs : (pngSetup mode file.colour).2 <;> simp [hs, channels] at t4 ⊢ <;> omega
  · intro x y c hx hy hc
    show d[y * im.stride + (channels (pngSetup mode file.colour).2 * x + c)]? = _
    have hxc : channels (pngSetup mode file.colour).2 * x + c < channels (pngSetup mode file.colour).2 * file.width := by
      have : channels (pngSetup mode file.colour).2 * x + channels (pngSetup mode file.colour).2 ≤
          channels (pngSetup mode file.colour).2 * file.width := by
        rw [← Nat.mul_succ]
        exact Nat.mul_le_mul_left _ hx
      omega
    rw [d2 y _ (by omega) hxc, pngRow, (flatMap_uniform (k := channels (pngSetup mode file.colour).2) (fun x => by
      rw [pngPix_want lum mode file hb, want_length])).2 x c hx hc, pngPix_want lum mode file hb]

/-- The claim fails for colour without alpha in mode `NX_IMAGE_LOAD_RGBA`: no alpha is added, so the pixels of three samples
are stored one after the other in an image of four. The alpha of the first pixel is the red of the second. -/
theorem c113_png_rgb_false (lum : Byte → Byte → Byte → Byte) (junk : Nat → Byte) {σ : Mem} {l : List Nat}
    (file : PngFile) {img : UImg} (hw : img.Wf) (hh : file.header = true) (hr : file.height ≤ file.rows)
    (hf : Fits true file.width file.height) (hc : file.colour = .rgb ∨ file.colour = .palette) (ht : file.trns = false)
    (hx : 2 ≤ file.width) (hy : 1 ≤ file.height) (h : Owns σ l) :
    ∃ σ' img', loadPng8 lum junk σ .rgba file img = .ok (σ', img', true) ∧ img'.rgba = true ∧
      img'.chan 0 0 3 = some (file.px 0 1).r := by
  have h3 := alloc_owns (alloc_owns (alloc_owns h))
  obtain ⟨σ4, e4, h4⟩ := free_owns (p := (memAlloc (memAlloc σ).1).2)
    (l := (memAlloc (memAlloc (memAlloc σ).1).1).2 :: (memAlloc σ).2 :: l) (h3.swap (by
      intro q
      simp only [List.count_cons]
      omega))
  obtain ⟨σ5, e5, h5⟩ := free_owns (p := (memAlloc σ).2) (l := (memAlloc (memAlloc (memAlloc σ).1).1).2 :: l) (h4.swap (by
      intro q
      simp only [List.count_cons]
      omega))
  obtain ⟨σ6, e6, h6⟩ := free_owns h5
  obtain ⟨im, et, t1, t2, t3, t4, t5⟩ := pngTarget_ok junk hw file hf
  have hs : (pngSetup .rgba file.colour).2 = true := by rcases hc with hc | hc <;> rw [hc] <;> rfl
  have hpix : ∀ y x, (pngTransform lum (pngSetup .rgba file.colour).1
      (pngExpand file.colour file.trns (file.px y x))).bytes = [(file.px y x).r, (file.px y x).g, (file.px y x).b] := by
    intro y x
    rcases hc with hc | hc <;> rw [hc, ht] <;> rfl
  have hlen : ∀ y, (pngRow lum (pngSetup .rgba file.colour).1 file y).length = 3 * file.width := by
    intro y
    refine (flatMap_uniform ?_).1
    intro x
    rw [hpix]
    rfl
  obtain ⟨d, ed, d1, d2⟩ := rows_ok (stride := im.stride) (n := im.height) (d := im.data) (k := 3 * file.width)
    (by simp only [channels, if_true] at t4; omega) hlen (by omega)
  refine ⟨σ6, { im with data := d }, ?_, t1, ?_⟩
  · rw [loadPng8]
    simp only
    rw [if_neg (by simp [hh]), hs, et, Res.ok_bind, Nat.min_eq_right (by omega), pngRows, ed, Res.ok_bind, e4, Res.ok_bind,
      e5, Res.ok_bind, if_neg (by omega), e6]
    rfl
  · show d[0 * im.stride + (4 * 0 + 3)]? = _
    have hx3 := (flatMap_uniform (w := file.width) (k := 3)
      (g := fun x => (pngTransform lum (pngSetup .rgba file.colour).1 (pngExpand file.colour file.trns (file.px 0 x))).bytes)
      (fun x => by rw [hpix 0 x]; rfl)).2 1 0 (by omega) (by omega)
    rw [d2 0 3 (by omega) (by omega), pngRow]
    rw [Nat.mul_one, Nat.add_zero] at hx3
    rw [hx3, hpix]
    rfl

/-- The claim fails for gray files with transparency in mode `NX_IMAGE_LOAD_AS_IS`: libpng gives two samples for each pixel
and the image has room for one, so that memory behind the image is overwritten. -/
theorem c113_png_overflow_false (lum : Byte → Byte → Byte → Byte) (junk : Nat → Byte) {σ : Mem} (file : PngFile) {img : UImg}
    (hh : file.header = true) (hr : file.height ≤ file.rows) (hf : Fits false file.width file.height)
    (hc : file.colour = .gray) (ht : file.trns = true) (hx : 1 ≤ file.width) (hy : 1 ≤ file.height)
    (hi : img.width ≠ file.width) : loadPng8 lum junk σ .asIs file img = .ub := by
  obtain ⟨im, et, t1, t2, t3, t4, t5⟩ := uResize_ok (junk := junk) hf
  simp only [channels, Bool.false_eq_true, if_false, Nat.one_mul] at t4
  have htar : pngTarget junk img file false = .ok im := by
    unfold pngTarget
    rw [if_pos (Or.inl (Ne.symm hi)), et]
  have hs : (pngSetup .asIs file.colour).2 = false := by rw [hc]; rfl
  have hpix : ∀ y x, (pngTransform lum (pngSetup .asIs file.colour).1
      (pngExpand file.colour file.trns (file.px y x))).bytes = [(file.px y x).r, (file.px y x).a] := by
    intro y x
    rw [hc, ht]
    rfl
  have hlen : ∀ y, (pngRow lum (pngSetup .asIs file.colour).1 file y).length = 2 * file.width := by
    intro y
    refine (flatMap_uniform ?_).1
    intro x
    rw [hpix]
    rfl
  obtain ⟨n, hn⟩ : ∃ n, im.height = n + 1 := ⟨im.height - 1, by omega⟩
  have hub : pngRows lum (pngSetup .asIs file.colour).1 file im.stride (n + 1) im.data = .ub := by
    have hlt : im.data.length = im.stride * n + im.stride := by rw [t5, hn, Nat.mul_succ]
    obtain ⟨d, ed, d1⟩ := forLoop_spec (fun _ d => d.length = im.data.length) (n := n)
      (body := fun y d => writeBlock d (y * im.stride) (pngRow lum (pngSetup .asIs file.colour).1 file y))
      (s := im.data) (Nat.zero_le n) rfl (by
      intro i s _ hi' h1
      have : i * im.stride + im.stride ≤ im.stride * n := by
        rw [← Nat.succ_mul, Nat.mul_comm]
        exact Nat.mul_le_mul_left _ hi'
      have hb' : i * im.stride + (pngRow lum (pngSetup .asIs file.colour).1 file i).length ≤ s.length := by
        rw [hlen, h1, hlt]
        omega
      refine ⟨_, writeBlock_ok _ hb', ?_⟩
      simp only [List.length_append, List.length_take, List.length_drop]
      omega)
    rw [pngRows, forLoop_upto 0 (Nat.zero_le n) (Nat.le_succ n) ed]
    refine forLoop_ub (Nat.lt_succ_self n) ?_
    rw [writeBlock, if_neg]
    rw [hlen, d1, hlt, Nat.mul_comm]
    omega
  rw [loadPng8]
  simp only
  rw [if_neg (by simp [hh]), hs, htar, Res.ok_bind, Nat.min_eq_right (by omega), hn, hub]
  rfl

/-- A PNG file with a header that cannot be read leaves the image as it is and no memory. -/
theorem c113_png_header (lum : Byte → Byte → Byte → Byte) (junk : Nat → Byte) {σ : Mem} {l : List Nat} (mode : LoadMode)
    (file : PngFile) (img : UImg) (hh : file.header = false) (h : Owns σ l) :
    ∃ σ', loadPng8 lum junk σ mode file img = .ok (σ', img, false) ∧ Owns σ' l := by
  obtain ⟨σ4, e4, h4⟩ := free_owns (alloc_owns (alloc_owns h))
  obtain ⟨σ5, e5, h5⟩ := free_owns h4
  refine ⟨σ5, ?_, h5⟩
  rw [loadPng8]
  simp only
  rw [if_pos hh, e4, Res.ok_bind, e5]
  rfl

/-- A PNG file that ends early is reported, but the row pointers are never freed. -/
theorem c113_png_leak_false (lum : Byte → Byte → Byte → Byte) (junk : Nat → Byte) {σ : Mem} {l : List Nat} (mode : LoadMode)
    (file : PngFile) {img : UImg} (hw : img.Wf) (hh : file.header = true) (hr : file.rows < file.height)
    (hf : Fits (wantRgba mode file.colour.isColour) file.width file.height)
    (hb : ¬ PngBad mode file.colour file.trns) (h : Owns σ l) :
    ∃ σ' img' p, loadPng8 lum junk σ mode file img = .ok (σ', img', false) ∧ Owns σ' (p :: l) := by
  have h3 := alloc_owns (alloc_owns (alloc_owns h))
  obtain ⟨σ4, e4, h4⟩ := free_owns (p := (memAlloc (memAlloc σ).1).2)
    (l := (memAlloc (memAlloc (memAlloc σ).1).1).2 :: (memAlloc σ).2 :: l) (h3.swap (by
      intro q
      simp only [List.count_cons]
      omega))
  obtain ⟨σ5, e5, h5⟩ := free_owns (p := (memAlloc σ).2) (l := (memAlloc (memAlloc (memAlloc σ).1).1).2 :: l) (h4.swap (by
      intro q
      simp only [List.count_cons]
      omega))
  rw [← pngSetup_type] at hf
  obtain ⟨im, et, t1, t2, t3, t4, t5⟩ := pngTarget_ok junk hw file hf
  have hlen : ∀ y, (pngRow lum (pngSetup mode file.colour).1 file y).length =
      channels (pngSetup mode file.colour).2 * file.width := by
    intro y
    refine (flatMap_uniform ?_).1
    intro x
    rw [pngPix_want lum mode file hb, want_length]
  obtain ⟨d, ed, d1, d2⟩ := rows_ok (stride := im.stride) (n := file.rows) (d := im.data) t4 hlen (by
    rw [t5]
    exact Nat.mul_le_mul_left _ (by omega))
  refine ⟨σ5, { im with data := d }, _, ?_, h5⟩
  rw [loadPng8]
  simp only
  rw [if_neg (by simp [hh]), et, Res.ok_bind, Nat.min_eq_left (by omega), pngRows, ed, Res.ok_bind, e4, Res.ok_bind, e5,
    Res.ok_bind, if_pos (by omega)]
  rfl

/-- The rows that are given to libpng are those of the image, and all memory is freed. -/
theorem c113_png_save {σ : Mem} {l : List Nat} {img : UImg} (hw : img.Wf) (h : Owns σ l) :
    ∃ σ' rows, savePng8 σ img = .ok (σ', if img.rgba then .rgba else .gray, rows) ∧ Owns σ' l ∧
      rows.length = img.height ∧ ∀ y x c, y < img.height → x < img.width → c < channels img.rgba →
        (rows[y]?).bind (·[channels img.rgba * x + c]?) = img.data[y * img.stride + (channels img.rgba * x + c)]? := by
  have h3 := alloc_owns (alloc_owns (alloc_owns h))
  obtain ⟨σ4, e4, h4⟩ := free_owns (p := (memAlloc (memAlloc σ).1).2)
    (l := (memAlloc (memAlloc (memAlloc σ).1).1).2 :: (memAlloc σ).2 :: l) (h3.swap (by
      intro q
      simp only [List.count_cons]
      omega))
  obtain ⟨σ5, e5, h5⟩ := free_owns (p := (memAlloc σ).2) (l := (memAlloc (memAlloc (memAlloc σ).1).1).2 :: l) (h4.swap (by
      intro q
      simp only [List.count_cons]
      omega))
  obtain ⟨σ6, e6, h6⟩ := free_owns h5
  have hst : channels img.rgba * img.width ≤ img.stride := by
    have := hw.stride_ge
    cases hr : img.rgba <;> simp [hr, channels] at this ⊢ <;> omega
  obtain ⟨rows, er, r1, r2⟩ := forLoop_spec (fun i rows => rows.length = i ∧ ∀ y, y < i →
      rows[y]? = some ((img.data.drop (y * img.stride)).take (channels img.rgba * img.width))) (n := img.height)
    (body := pngSaveRow img) (s := []) (Nat.zero_le _) ⟨rfl, by omega⟩ (by
    rintro i rows - hi ⟨h1, h2⟩
    have hb : i * img.stride + channels img.rgba * img.width ≤ img.data.length := by
      have : i * img.stride + img.stride ≤ img.data.length := by
        rw [hw.length_eq, ← Nat.succ_mul, Nat.mul_comm]
        exact Nat.mul_le_mul_left _ hi
      omega
    refine ⟨rows ++ [(img.data.drop (i * img.stride)).take (channels img.rgba * img.width)], ?_, by simp [h1], ?_⟩
    · rw [pngSaveRow, readBlock, if_pos hb]
      rfl
    · intro y hy
      by_cases hyi : y = i
      · subst hyi
        rw [List.getElem?_append_right (by omega), h1, Nat.sub_self]
        rfl
      · rw [List.getElem?_append_left (by omega)]
        exact h2 y (by omega))
  refine ⟨σ6, rows, ?_, h6, r1, ?_⟩
  · rw [savePng8]
    rw [er, Res.ok_bind, e4, Res.ok_bind, e5, Res.ok_bind, e6]
    rfl
  · intro y x c hy hx hc
    rw [r2 y hy, Option.bind_some, take_drop_get]
    have : channels img.rgba * x + channels img.rgba ≤ channels img.rgba * img.width := by
      rw [← Nat.mul_succ]
      exact Nat.mul_le_mul_left _ hx
    omega

/-- A file without loss: it has the type and the samples that were given to libpng. -/
structure PngKeeps (file : PngFile) (c : PngColour) (w h : Nat) (rows : List Bytes) : Prop where
  header : file.header = true
  width : file.width = w
  height : file.height = h
  colour : file.colour = c
  trns : file.trns = false
  complete : h ≤ file.rows
  gray : c = .gray → ∀ y x, y < h → x < w → (rows[y]?).bind (·[x]?) = some (file.px y x).r
  colours : c = .rgba → ∀ y x, y < h → x < w →
    (rows[y]?).bind (·[4 * x]?) = some (file.px y x).r ∧ (rows[y]?).bind (·[4 * x + 1]?) = some (file.px y x).g ∧
    (rows[y]?).bind (·[4 * x + 2]?) = some (file.px y x).b ∧ (rows[y]?).bind (·[4 * x + 3]?) = some (file.px y x).a

/-- An image that is saved as PNG and loaded again has the same type, size and samples. -/
theorem c113_png_round (lum : Byte → Byte → Byte → Byte) (junk : Nat → Byte) {σ σ1 : Mem} {l : List Nat} {img old : UImg}
    {file : PngFile} {c : PngColour} {rows : List Bytes} (hw : img.Wf) (ho : old.Wf)
    (hf : Fits img.rgba img.width img.height) (h : Owns σ l) (hs : savePng8 σ img = .ok (σ1, c, rows))
    (hk : PngKeeps file c img.width img.height rows) :
    ∃ σ' img', loadPng8 lum junk σ1 .asIs file old = .ok (σ', img', true) ∧ Owns σ' l ∧ img'.rgba = img.rgba ∧
      img'.width = img.width ∧ img'.height = img.height ∧
      ∀ x y c, x < img.width → y < img.height → c < channels img.rgba →
        img'.data[y * img'.stride + (channels img.rgba * x + c)]? =
          img.data[y * img.stride + (channels img.rgba * x + c)]? := by
  obtain ⟨σ2, rows2, e2, h2, r1, r2⟩ := c113_png_save hw h
  rw [hs] at e2
  injection e2 with e2
  injection e2 with ea e2
  injection e2 with eb ec
  subst ea
  subst ec
  have hcol : file.colour.isColour = img.rgba := by
    rw [hk.colour, eb]
    cases img.rgba <;> rfl
  have hty : wantRgba .asIs file.colour.isColour = img.rgba := hcol
  obtain ⟨σ', img', e, h', w'⟩ := c113_png_partial lum junk .asIs file ho hk.header (by rw [hk.height]; exact hk.complete)
    (by rw [hty, hk.width, hk.height]; exact hf) (by
      rintro (⟨h1, -⟩ | ⟨-, -, h1⟩)
      · cases h1
      · rw [hk.trns] at h1
        cases h1) h2
  rw [hty, hk.width, hk.height] at w'
  refine ⟨σ', img', e, h', w'.type_eq, w'.width_eq, w'.height_eq, ?_⟩
  intro x y ch hx hy hch
  rw [w'.pixel_eq x y ch hx hy hch, ← r2 y x ch hy hx hch]
  unfold PngFile.want PngFile.alpha
  rw [hcol]
  cases hr : img.rgba with
  | false =>
    rw [hr] at hch eb
    have h0 : ch = 0 := by simp [channels] at hch; exact hch
    subst h0
    have := hk.gray (by rw [eb]; rfl) y x hy hx
    simp only [channels, Bool.false_eq_true, if_false, Nat.one_mul, Nat.add_zero]
    rw [this]
    rfl
  | true =>
    rw [hr] at hch eb
    obtain ⟨a1, a2, a3, a4⟩ := hk.colours (by rw [eb]; rfl) y x hy hx
    have hcl : file.colour = .rgba := by rw [hk.colour, eb]; rfl
    simp only [channels, if_true] at hch ⊢
    rw [hcl]
    simp only
    match ch, hch with
    | 0, _ => rw [Nat.add_zero, a1]; rfl
    | 1, _ => rw [a2]; rfl
    | 2, _ => rw [a3]; rfl
    | 3, _ => rw [a4]; rfl

/-! ## JPEG -/

theorem jpegCopyRow_ok {buffer d : Bytes} {w off : Nat} (hb : buffer.length = 3 * w) (hd : off + 4 * w ≤ d.length) :
    ∃ d', jpegCopyRow buffer w off d = .ok d' ∧ d'.length = d.length ∧
      (∀ x c, x < w → c < 3 → d'[off + (4 * x + c)]? = buffer[3 * x + c]?) ∧
      (∀ x, x < w → d'[off + (4 * x + 3)]? = some 255) ∧
      (∀ j, j < off ∨ off + 4 * w ≤ j → d'[j]? = d[j]?) := by
  obtain ⟨d', e, h1, h2, h3, h4⟩ := forLoop_spec (fun i d' => d'.length = d.length ∧
      (∀ x c, x < i → c < 3 → d'[off + (4 * x + c)]? = buffer[3 * x + c]?) ∧
      (∀ x, x < i → d'[off + (4 * x + 3)]? = some 255) ∧
      (∀ j, j < off ∨ off + 4 * w ≤ j → d'[j]? = d[j]?)) (n := w)
    (body := fun x d => do
      let b ← readBlock buffer (3 * x) 3
      writeBlock d (off + 4 * x) (rgbToRgba b)) (s := d) (Nat.zero_le w)
    ⟨rfl, by omega, by omega, by intros; rfl⟩ (by
    rintro i s - hi ⟨h1, h2, h3, h4⟩
    have hrb : readBlock buffer (3 * i) 3 = .ok ((buffer.drop (3 * i)).take 3) := by
      rw [readBlock, if_pos (by omega)]
    obtain ⟨r, g, b, hrgb⟩ : ∃ r g b, (buffer.drop (3 * i)).take 3 = [r, g, b] := by
      have hl : ((buffer.drop (3 * i)).take 3).length = 3 := by
        rw [List.length_take, List.length_drop]
        omega
      match hm : (buffer.drop (3 * i)).take 3, hl with
      | [r, g, b], _ => exact ⟨r, g, b, rfl⟩
    have hget : ∀ c, c < 3 → ([r, g, b, 255] : Bytes)[c]? = buffer[3 * i + c]? := by
      intro c hc
      rw [← take_drop_get hc, hrgb]
      match c, hc with
      | 0, _ => rfl
      | 1, _ => rfl
      | 2, _ => rfl
    have hfit : off + 4 * i + ([r, g, b, 255] : Bytes).length ≤ s.length := by
      simp only [List.length_cons, List.length_nil]
      omega
    refine ⟨_, by rw [hrb, Res.ok_bind, hrgb, rgbToRgba, writeBlock_ok _ hfit], ?_, ?_, ?_, ?_⟩
    · simp only [List.length_append, List.length_take, List.length_drop, List.length_cons, List.length_nil] at hfit ⊢
      omega
    · intro x c hx hc
      rw [getElem?_writeBlock hfit]
      simp only [List.length_cons, List.length_nil]
      by_cases hxi : x = i
      · subst hxi
        rw [if_pos (by omega), show off + (4 * x + c) - (off + 4 * x) = c by omega, hget c hc]
      · rw [if_neg (by omega)]
        exact h2 x c (by omega) hc
    · intro x hx
      rw [getElem?_writeBlock hfit]
      simp only [List.length_cons, List.length_nil]
      by_cases hxi : x = i
      · subst hxi
        rw [if_pos (by omega), show off + (4 * x + 3) - (off + 4 * x) = 3 by omega]
        rfl
      · rw [if_neg (by omega)]
        exact h3 x (by omega)
    · intro j hj
      rw [getElem?_writeBlock hfit]
      simp only [List.length_cons, List.length_nil]
      rw [if_neg (by omega)]
      exact h4 j hj)
  exact ⟨d', e, h1, h2, h3, h4⟩

theorem jpegColourRows_ok (lum : Byte → Byte → Byte → Byte) (file : JpegFile) {out : JpegSpace} {stride n : Nat}
    {buffer d : Bytes} (hb : buffer.length = 3 * file.width) (hs : 4 * file.width ≤ stride) (hd : stride * n ≤ d.length)
    (ho : ∀ y x, (jpegPix lum file.space out (file.px y x)).length = 3) :
    ∃ s, jpegColourRows lum file out stride n (buffer, d) = .ok s ∧ s.2.length = d.length ∧
      (∀ y x c, y < n → x < file.width → c < 3 →
        s.2[y * stride + (4 * x + c)]? = (jpegPix lum file.space out (file.px y x))[c]?) ∧
      (∀ y x, y < n → x < file.width → s.2[y * stride + (4 * x + 3)]? = some 255) := by
  obtain ⟨s, e, h0, h1, h2, h3⟩ := forLoop_spec (fun i (s : Bytes × Bytes) => s.1.length = 3 * file.width ∧
      s.2.length = d.length ∧
      (∀ y x c, y < i → x < file.width → c < 3 →
        s.2[y * stride + (4 * x + c)]? = (jpegPix lum file.space out (file.px y x))[c]?) ∧
      (∀ y x, y < i → x < file.width → s.2[y * stride + (4 * x + 3)]? = some 255)) (n := n)
    (body := fun y s => do
      let buffer ← writeBlock s.1 0 (jpegRow lum file out y)
      let d ← jpegCopyRow buffer file.width (y * stride) s.2
      pure (buffer, d)) (s := (buffer, d)) (Nat.zero_le n) ⟨hb, rfl, by omega, by omega⟩ (by
    rintro i s - hi ⟨h0, h1, h2, h3⟩
    have hrow := flatMap_uniform (w := file.width) (ho i)
    have hrl : (jpegRow lum file out i).length = 3 * file.width := hrow.1
    have hwb : writeBlock s.1 0 (jpegRow lum file out i) = .ok (jpegRow lum file out i) := by
      rw [writeBlock_ok _ (by omega), List.take_zero, List.nil_append, List.drop_eq_nil_of_le (by omega), List.append_nil]
    have hst : i * stride + stride ≤ d.length := by
      refine Nat.le_trans ?_ hd
      rw [← Nat.succ_mul, Nat.mul_comm]
      exact Nat.mul_le_mul_left _ hi
    obtain ⟨d', e, g1, g2, g3, g4⟩ := jpegCopyRow_ok (off := i * stride) (d := s.2) hrl (by omega)
    refine ⟨(jpegRow lum file out i, d'), by rw [hwb, Res.ok_bind, e]; rfl, hrl, by rw [g1, h1], ?_, ?_⟩
    · intro y x c hy hx hc
      by_cases hyi : y = i
      · subst hyi
        rw [g2 x c hx hc, jpegRow, hrow.2 x c hx hc]
      · have : y * stride + stride ≤ i * stride := by
          rw [← Nat.succ_mul]
          exact Nat.mul_le_mul_right _ (by omega)
        rw [g4 _ (by omega)]
        exact h2 y x c (by omega) hx hc
    · intro y x hy hx
      by_cases hyi : y = i
      · subst hyi
        exact g3 x hx
      · have : y * stride + stride ≤ i * stride := by
          rw [← Nat.succ_mul]
          exact Nat.mul_le_mul_right _ (by omega)
        rw [g4 _ (by omega)]
        exact h3 y x (by omega) hx)
  exact ⟨s, e, h1, h2, h3⟩

/-- A JPEG file of gray or colour gives an image of the wanted type with the decoded pixels; all memory but that of the image
is freed. -/
theorem c113_jpeg_partial (lum : Byte → Byte → Byte → Byte) (junk : Nat → Byte) {σ : Mem} {l : List Nat} (mode : LoadMode)
    (file : JpegFile) (img : UImg) (hh : file.header = true) (hr : file.height ≤ file.rows)
    (hs : file.space = .gray ∨ file.space = .rgb)
    (hf : Fits (wantRgba mode (file.space != .gray)) file.width file.height) (h : Owns σ l) :
    ∃ σ' img', loadJpeg8 lum junk σ mode file img = .ok (σ', img', true) ∧ Owns σ' l ∧
      img'.Shows (wantRgba mode (file.space != .gray)) file.width file.height
        (file.want lum (wantRgba mode (file.space != .gray))) := by
  obtain ⟨out, hout, hog⟩ : ∃ out, jpegOut mode file.space = some out ∧
      (out = .gray ∧ wantRgba mode (file.space != .gray) = false ∨
       out = .rgb ∧ wantRgba mode (file.space != .gray) = true) := by
    rcases hs with hs | hs <;> rw [hs] <;> cases mode <;> simp [jpegOut, wantRgba]
  have h1 := alloc_owns h
  rcases hog with ⟨rfl, hwt⟩ | ⟨rfl, hwt⟩
  · rw [hwt] at hf ⊢
    obtain ⟨im, et, t1, t2, t3, t4, t5⟩ := uResize_ok (junk := junk) hf
    simp only [channels, Bool.false_eq_true, if_false, Nat.one_mul] at t4
    have hlen1 : ∀ y x, (jpegPix lum file.space .gray (file.px y x)).length = 1 := by
      intro y x
      rcases hs with hs | hs <;> rw [hs] <;> rfl
    have hlen : ∀ y, (jpegRow lum file .gray y).length = file.width := by
      intro y
      rw [jpegRow, (flatMap_uniform (hlen1 y)).1, Nat.one_mul]
    obtain ⟨d, ed, d1, d2⟩ := rows_ok (stride := im.stride) (n := im.height) (d := im.data) (by omega) hlen (by omega)
    obtain ⟨σ2, e2, h2⟩ := free_owns h1
    refine ⟨σ2, { im with data := d }, ?_, h2, t1, t2, t3, ⟨?_, by rw [d1]; exact t5⟩, ?_⟩
    · rw [loadJpeg8]
      rw [if_neg (by simp [hh]), hout]
      simp only
      rw [show ((JpegSpace.gray).comps != 1) = false from rfl, et, Res.ok_bind, jpegPixels]
      simp only
      rw [if_pos trivial, Nat.min_eq_right (by omega), jpegGrayRows, ed, Res.ok_bind, Res.pure_eq, Res.ok_bind]
      simp only
      rw [e2, Res.ok_bind, decide_eq_true (by omega)]
      rfl
    · show (if im.rgba then 4 * im.width else im.width) ≤ im.stride
      rw [t1]
      simp
      omega
    · intro x y c hx hy hc
      have hc0 : c = 0 := by simp [channels] at hc; exact hc
      subst hc0
      show d[y * im.stride + (channels false * x + 0)]? = _
      simp only [channels, Bool.false_eq_true, if_false, Nat.one_mul, Nat.add_zero]
      have := (flatMap_uniform (w := file.width) (hlen1 y)).2 x 0 hx (by omega)
      rw [Nat.one_mul, Nat.add_zero] at this
      rw [d2 y x (by omega) hx, jpegRow, this]
      rcases hs with hs | hs <;> simp [JpegFile.want, jpegPix, hs, JpegSpace.comps]
  · rw [hwt] at hf ⊢
    obtain ⟨im, et, t1, t2, t3, t4, t5⟩ := uResize_ok (junk := junk) hf
    simp only [channels, if_true] at t4
    have hlen3 : ∀ y x, (jpegPix lum file.space .rgb (file.px y x)).length = 3 := by
      intro y x
      rcases hs with hs | hs <;> rw [hs] <;> rfl
    have h2 := alloc_owns h1
    obtain ⟨⟨b, d⟩, ed, d1, d2, d3⟩ := jpegColourRows_ok lum file (out := .rgb) (stride := im.stride) (n := im.height)
      (buffer := (List.range (3 * im.width)).map junk) (d := im.data) (by simp [t2]) (by omega) (by omega) hlen3
    simp only at d1 d2 d3
    obtain ⟨σ3, e3, h3⟩ := free_owns h2
    obtain ⟨σ4, e4, h4⟩ := free_owns h3
    refine ⟨σ4, { im with data := d }, ?_, h4, t1, t2, t3, ⟨?_, by rw [d1]; exact t5⟩, ?_⟩
    · rw [loadJpeg8]
      rw [if_neg (by simp [hh]), hout]
      simp only
      rw [show ((JpegSpace.rgb).comps != 1) = true from rfl, et, Res.ok_bind, jpegPixels]
      simp only
      rw [if_neg (by simp), Nat.min_eq_right (by omega), ed, Res.ok_bind, if_neg (by omega), e3, Res.ok_bind, Res.pure_eq,
        Res.ok_bind]
      simp only
      rw [e4, Res.ok_bind, decide_eq_true (by omega)]
      rfl
    · show (if im.rgba then 4 * im.width else im.width) ≤ im.stride
      rw [t1]
      simp
      omega
    · intro x y c hx hy hc
      simp only [channels, if_true] at hc ⊢
      by_cases hc3 : c = 3
      · subst hc3
        rw [d3 y x (by omega) hx]
        rcases hs with hs | hs <;> simp [JpegFile.want, hs]
      · rw [d2 y x c (by omega) hx (by omega)]
        have : c = 0 ∨ c = 1 ∨ c = 2 := by omega
        rcases hs with hs | hs <;> rcases this with rfl | rfl | rfl <;>
          simp [JpegFile.want, jpegPix, hs, JpegSpace.comps]

/-- The claim fails for files of four or more components in mode `NX_IMAGE_LOAD_AS_IS`, in particular CMYK: the buffer for a
row has room for three samples for each pixel. -/
theorem c113_jpeg_overflow_false (lum : Byte → Byte → Byte → Byte) (junk : Nat → Byte) {σ : Mem} (file : JpegFile) (img : UImg)
    (hh : file.header = true) (hr : 1 ≤ file.rows) (hs : file.space = .cmyk ∨ ∃ n, 4 ≤ n ∧ file.space = .other n)
    (hf : Fits true file.width file.height) (hx : 1 ≤ file.width) (hy : 1 ≤ file.height) :
    loadJpeg8 lum junk σ .asIs file img = .ub := by
  obtain ⟨im, et, t1, t2, t3, t4, t5⟩ := uResize_ok (junk := junk) hf
  have hc : 4 ≤ file.space.comps := by
    rcases hs with hs | ⟨n, hn, hs⟩ <;> rw [hs] <;> simp only [JpegSpace.comps] <;> omega
  have hng : file.space ≠ .gray := by
    rcases hs with hs | ⟨n, hn, hs⟩ <;> rw [hs] <;> simp
  have hlen : ∀ y, (jpegRow lum file file.space y).length = file.space.comps * file.width := by
    intro y
    refine (flatMap_uniform ?_).1
    intro x
    rcases hs with hs | ⟨n, hn, hs⟩ <;> rw [hs] <;> simp [jpegPix, JpegSpace.comps]
  rw [loadJpeg8]
  rw [if_neg (by simp [hh]), jpegOut]
  simp only
  rw [show (file.space.comps != 1) = true by simp; omega, et, Res.ok_bind, jpegPixels]
  simp only
  rw [if_neg hng, jpegColourRows, forLoop_ub (by omega)]
  · rfl
  · simp only
    rw [writeBlock, if_neg]
    · rfl
    · rw [hlen, List.length_map, List.length_range, t2, Nat.zero_add]
      have := Nat.mul_le_mul_right file.width hc
      omega

/-- Files of other colour spaces are refused in the other modes, without a leak. -/
theorem c113_jpeg_refused (lum : Byte → Byte → Byte → Byte) (junk : Nat → Byte) {σ : Mem} {l : List Nat} {mode : LoadMode}
    (file : JpegFile) (img : UImg)
    (hs : file.header = false ∨ (mode ≠ .asIs ∧ file.space ≠ .gray ∧ file.space ≠ .rgb)) (h : Owns σ l) :
    ∃ σ', loadJpeg8 lum junk σ mode file img = .ok (σ', img, false) ∧ Owns σ' l := by
  obtain ⟨σ2, e2, h2⟩ := free_owns (alloc_owns h)
  refine ⟨σ2, ?_, h2⟩
  rw [loadJpeg8]
  by_cases hh : file.header = false
  · rw [if_pos hh, e2]
    rfl
  · obtain ⟨hm, h3, h4⟩ := hs.resolve_left hh
    have : jpegOut mode file.space = none := by
      cases mode <;> simp [jpegOut, h3, h4] at hm ⊢
    rw [if_neg hh, this]
    simp only
    rw [e2]
    rfl

/-- A colour file that ends early is reported, but the buffer is never freed. -/
theorem c113_jpeg_leak_false (lum : Byte → Byte → Byte → Byte) (junk : Nat → Byte) {σ : Mem} {l : List Nat}
    (file : JpegFile) (img : UImg) (hh : file.header = true) (hr : file.rows < file.height) (hs : file.space = .rgb)
    (hf : Fits true file.width file.height) (h : Owns σ l) :
    ∃ σ' img' p, loadJpeg8 lum junk σ .asIs file img = .ok (σ', img', false) ∧ Owns σ' (p :: l) := by
  have h1 := alloc_owns h
  obtain ⟨im, et, t1, t2, t3, t4, t5⟩ := uResize_ok (junk := junk) hf
  simp only [channels, if_true] at t4
  obtain ⟨⟨b, d⟩, ed, -⟩ := jpegColourRows_ok lum file (out := .rgb) (stride := im.stride) (n := file.rows)
    (buffer := (List.range (3 * im.width)).map junk) (d := im.data) (by simp [t2]) (by omega)
    (by rw [t5]; exact Nat.mul_le_mul_left _ (by omega)) (by intro y x; rw [hs]; rfl)
  obtain ⟨σ4, e4, h4⟩ := free_owns (p := (memAlloc σ).2) (l := (memAlloc (memAlloc σ).1).2 :: l) ((alloc_owns h1).swap (by
    intro q
    simp only [List.count_cons]
    omega))
  refine ⟨σ4, { im with data := d }, _, ?_, h4⟩
  rw [loadJpeg8]
  rw [if_neg (by simp [hh]), jpegOut]
  simp only
  rw [hs, show ((JpegSpace.rgb).comps != 1) = true from rfl, et, Res.ok_bind, jpegPixels]
  simp only
  rw [if_neg (by simp), Nat.min_eq_left (by omega), ed, Res.ok_bind, if_pos (by omega), Res.pure_eq, Res.ok_bind]
  simp only
  rw [e4, Res.ok_bind, decide_eq_false (by omega)]
  rfl

theorem jpegPackRow_ok {img : UImg} {off : Nat} {buffer : Bytes} (hb : buffer.length = 3 * img.width)
    (hd : off + 4 * img.width ≤ img.data.length) :
    ∃ b, jpegPackRow img off buffer = .ok b ∧ b.length = 3 * img.width ∧
      ∀ x c, x < img.width → c < 3 → b[3 * x + c]? = img.data[off + 4 * x + c]? := by
  obtain ⟨b, e, h1, h2⟩ := forLoop_spec (fun i b => b.length = 3 * img.width ∧
      ∀ x c, x < i → c < 3 → b[3 * x + c]? = img.data[off + 4 * x + c]?) (n := img.width)
    (body := fun x buffer => do
      let b ← readBlock img.data (off + 4 * x) 3
      writeBlock buffer (3 * x) b) (s := buffer) (Nat.zero_le _) ⟨hb, by omega⟩ (by
    rintro i s - hi ⟨h1, h2⟩
    have hrb : readBlock img.data (off + 4 * i) 3 = .ok ((img.data.drop (off + 4 * i)).take 3) := by
      rw [readBlock, if_pos (by omega)]
    have hl : ((img.data.drop (off + 4 * i)).take 3).length = 3 := by
      rw [List.length_take, List.length_drop]
      omega
    have hfit : 3 * i + ((img.data.drop (off + 4 * i)).take 3).length ≤ s.length := by omega
    refine ⟨_, by rw [hrb, Res.ok_bind, writeBlock_ok _ hfit], ?_, ?_⟩
    · simp only [List.length_append, hl, List.length_take (l := s), List.length_drop (l := s)] at hfit ⊢
      omega
    · intro x c hx hc
      rw [getElem?_writeBlock hfit, hl]
      by_cases hxi : x = i
      · subst hxi
        rw [if_pos (by omega), Nat.add_sub_cancel_left, take_drop_get hc]
      · rw [if_neg (by omega)]
        exact h2 x c (by omega) hc)
  exact ⟨b, e, h1, h2⟩

/-- The rows that are given to libjpeg are those of the image, without alpha. -/
theorem c113_jpeg_save (junk : Nat → Byte) {img : UImg} (hw : img.Wf) :
    ∃ rows, saveJpeg8 junk img = .ok (if img.rgba then 3 else 1, rows) ∧ rows.length = img.height ∧
      ∀ y x c, y < img.height → x < img.width → c < (if img.rgba then 3 else 1) →
        (rows[y]?).bind (·[(if img.rgba then 3 else 1) * x + c]?) =
          img.data[y * img.stride + (channels img.rgba * x + c)]? := by
  obtain ⟨s, es, -, s1, s2⟩ := forLoop_spec (fun i (s : Bytes × List Bytes) => s.1.length = 3 * img.width ∧ s.2.length = i ∧
      ∀ y x c, y < i → x < img.width → c < (if img.rgba then 3 else 1) →
        (s.2[y]?).bind (·[(if img.rgba then 3 else 1) * x + c]?) =
          img.data[y * img.stride + (channels img.rgba * x + c)]?) (n := img.height)
    (body := jpegSaveRow img) (s := ((List.range (3 * img.width)).map junk, [])) (Nat.zero_le _)
    ⟨by simp, rfl, by omega⟩ (by
    rintro i s - hi ⟨h0, h1, h2⟩
    have hst : i * img.stride + img.stride ≤ img.data.length := by
      rw [hw.length_eq, ← Nat.succ_mul, Nat.mul_comm]
      exact Nat.mul_le_mul_left _ hi
    have hsg := hw.stride_ge
    have step : ∀ (b1 b : Bytes), b1.length = 3 * img.width →
        (∀ x c, x < img.width → c < (if img.rgba then 3 else 1) → b[(if img.rgba then 3 else 1) * x + c]? =
          img.data[i * img.stride + (channels img.rgba * x + c)]?) →
        (b1, s.2 ++ [b]).1.length = 3 * img.width ∧ (b1, s.2 ++ [b]).2.length = i + 1 ∧
        ∀ y x c, y < i + 1 → x < img.width → c < (if img.rgba then 3 else 1) →
          ((b1, s.2 ++ [b]).2[y]?).bind (·[(if img.rgba then 3 else 1) * x + c]?) =
            img.data[y * img.stride + (channels img.rgba * x + c)]? := by
      intro b1 b hb1 hb
      refine ⟨hb1, by simp [h1], ?_⟩
      intro y x c hy hx hc
      simp only
      by_cases hyi : y = i
      · subst hyi
        rw [List.getElem?_append_right (by omega), h1, Nat.sub_self]
        exact hb x c hx hc
      · rw [List.getElem?_append_left (by omega)]
        exact h2 y x c (by omega) hx hc
    cases hr : img.rgba with
    | true =>
      rw [hr] at step hsg
      simp only [if_true] at hsg
      obtain ⟨b, e, b1, b2⟩ := jpegPackRow_ok (img := img) (off := i * img.stride) h0 (by omega)
      refine ⟨(b, s.2 ++ [b]), ?_, step b b b1 ?_⟩
      · rw [jpegSaveRow, if_pos hr, e, Res.ok_bind, readBlock, if_pos (by omega), List.drop_zero, Res.ok_bind,
          List.take_of_length_le (by omega)]
        rfl
      · intro x c hx hc
        simp only [if_true] at hc ⊢
        rw [b2 x c hx hc, channels, if_pos rfl, Nat.add_assoc]
    | false =>
      rw [hr] at step hsg
      simp only [Bool.false_eq_true, if_false] at hsg
      refine ⟨(s.1, s.2 ++ [(img.data.drop (i * img.stride)).take img.width]), ?_, step s.1 _ h0 ?_⟩
      · rw [jpegSaveRow, if_neg (by simp [hr]), readBlock, if_pos (by omega), Res.ok_bind]
        rfl
      · intro x c hx hc
        simp only [Bool.false_eq_true, if_false, channels, Nat.one_mul] at hc ⊢
        rw [take_drop_get (by omega)])
  refine ⟨s.2, ?_, s1, s2⟩
  rw [saveJpeg8, es, Res.ok_bind]
  rfl

/-! ## Examples -/

/-- The gray value of the examples. -/
def demoLum (r _ _ : Byte) : Byte := r

/-- A file of two by one pixels. -/
def demoPng (c : PngColour) (trns : Bool) (rows : Nat) : PngFile :=
  ⟨true, 2, 1, c, trns, fun _ x => if x = 0 then ⟨1, 2, 3, 4⟩ else ⟨5, 6, 7, 8⟩, rows⟩

/-- An image to load to. -/
def demoImg : UImg := ⟨false, 0, 0, 0, []⟩

/-- What is loaded: the data, the result and the number of blocks left. -/
def demoLoad (r : Res (Mem × UImg × Bool)) : Option (Bytes × Bool × Nat) :=
  match r with
  | .ok (σ, img, b) => some (img.data, b, σ.live.length)
  | _ => none

example : demoLoad (loadPng8 demoLum (fun _ => 99) ⟨[], 0⟩ .rgba (demoPng .gray true 1) demoImg) =
    some ([1, 1, 1, 4, 5, 5, 5, 8], true, 0) := by decide +kernel

example : demoLoad (loadPng8 demoLum (fun _ => 99) ⟨[], 0⟩ .asIs (demoPng .palette false 1) demoImg) =
    some ([1, 2, 3, 255, 5, 6, 7, 255], true, 0) := by decide +kernel

example : demoLoad (loadPng8 demoLum (fun _ => 99) ⟨[], 0⟩ .rgba (demoPng .rgb false 1) demoImg) =
    some ([1, 2, 3, 5, 6, 7, 99, 99], true, 0) := by decide +kernel

example : demoLoad (loadPng8 demoLum (fun _ => 99) ⟨[], 0⟩ .asIs (demoPng .gray true 1) demoImg) = none := by decide +kernel

example : demoLoad (loadPng8 demoLum (fun _ => 99) ⟨[], 0⟩ .gray (demoPng .rgba false 0) demoImg) =
    some ([99, 99], false, 1) := by decide +kernel

/-- A file of two by one pixels. -/
def demoJpeg (s : JpegSpace) : JpegFile := ⟨true, 2, 1, s, fun _ x c => UInt8.ofNat (10 * x + c), 1⟩

example : demoLoad (loadJpeg8 demoLum (fun _ => 99) ⟨[], 0⟩ .asIs (demoJpeg .rgb) demoImg) =
    some ([0, 1, 2, 255, 10, 11, 12, 255], true, 0) := by decide +kernel

example : demoLoad (loadJpeg8 demoLum (fun _ => 99) ⟨[], 0⟩ .rgba (demoJpeg .gray) demoImg) =
    some ([0, 0, 0, 255, 10, 10, 10, 255], true, 0) := by decide +kernel

example : demoLoad (loadJpeg8 demoLum (fun _ => 99) ⟨[], 0⟩ .asIs (demoJpeg .cmyk) demoImg) = none := by decide +kernel

example : Fits (wantRgba .asIs (demoPng .palette false 1).colour.isColour) 2 1 ∧
    ¬ PngBad .asIs (demoPng .palette false 1).colour false ∧ demoImg.Wf :=
  ⟨by simp [Fits, channels, wantRgba, demoPng, PngColour.isColour], by simp [PngBad, demoPng], ⟨by decide, by decide⟩⟩

example : (match savePng8 ⟨[], 0⟩ ⟨true, 1, 2, 5, [1, 2, 3, 4, 9, 5, 6, 7, 8, 9]⟩ with
    | .ok (_, c, rows) => decide (c = .rgba ∧ rows = [[1, 2, 3, 4], [5, 6, 7, 8]])
    | _ => false) = true := by decide +kernel

example : (match saveJpeg8 (fun _ => 0) ⟨true, 1, 2, 5, [1, 2, 3, 4, 9, 5, 6, 7, 8, 9]⟩ with
    | .ok (n, rows) => decide (n = 3 ∧ rows = [[1, 2, 3], [5, 6, 7]])
    | _ => false) = true := by decide +kernel

end Nx
