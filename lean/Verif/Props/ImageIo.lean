import Verif.Model.ImageIo
import Verif.Props.Pnm
import Verif.Props.Kitti
import Verif.Props.Temple

/-! # C100: image files of any kind; C101: VGG affine sequences -/

namespace Nx

/-! ## Names -/

theorem strrchr_none {c : Byte} {s : Bytes} : strrchr c s = none ↔ c ∉ s := by
  induction s with
  | nil => simp [strrchr]
  | cons b r ih =>
    rw [strrchr]
    cases h : strrchr c r with
    | some t =>
      have : ¬ c ∉ r := by rw [← ih, h]; simp
      simp only [reduceCtorEq, false_iff]
      intro hc
      exact this fun hm => hc (List.mem_cons_of_mem _ hm)
    | none =>
      have : c ∉ r := ih.mp h
      by_cases hb : b = c
      · simp [hb]
      · simp [hb, this, Ne.symm hb]

theorem strrchr_some {c : Byte} {v : Bytes} (hv : c ∉ v) (s : Bytes) : strrchr c s = some (c :: v) ↔ (c :: v) <:+ s := by
  induction s with
  | nil => simp [strrchr]
  | cons b r ih =>
    rw [strrchr, List.suffix_cons_iff, ← ih]
    cases h : strrchr c r with
    | some t =>
      have hc : c ∈ r := by
        refine Decidable.of_not_not fun hn => ?_
        rw [strrchr_none.mpr hn] at h
        cases h
      simp only [Option.some.injEq]
      constructor
      · exact Or.inr
      · rintro (e | e)
        · cases e
          exact absurd hc hv
        · exact e
    | none =>
      by_cases hb : b = c
      · subst hb
        simp [eq_comm]
      · simp only [if_neg hb, reduceCtorEq, or_false, false_iff]
        intro e
        cases e
        exact hb rfl

/-- The extensions of the kinds of files. -/
def pnmExts : List String := [".pgm", ".PGM", ".ppm", ".PPM"]

def jpegExts : List String := [".jpg", ".jpeg", ".JPG", ".JPEG"]

def pngExts : List String := [".png", ".PNG"]

theorem exts_dot : ∀ e ∈ pnmExts ++ jpegExts ++ pngExts, ∃ v, bytesOf e = 46 :: v ∧ (46 : Byte) ∉ v := by
  intro e he
  have : bytesOf e = 46 :: (bytesOf e).tail ∧ (46 : Byte) ∉ (bytesOf e).tail := by
    revert e
    decide +kernel
  exact ⟨_, this⟩

theorem strrchr_ext {name : Bytes} {e : String} (he : e ∈ pnmExts ++ jpegExts ++ pngExts) :
    strrchr 46 name = some (bytesOf e) ↔ bytesOf e <:+ name := by
  obtain ⟨v, e1, e2⟩ := exts_dot e he
  rw [e1]
  exact strrchr_some e2 name

/-- C100. The kind of file that is written is decided by the end of its name: one of the lower or upper case extensions. -/
theorem c100_name (name : Bytes) :
    (formatOfName name = .pnm ↔ ∃ e ∈ pnmExts, bytesOf e <:+ name) ∧
    (formatOfName name = .jpeg ↔ ∃ e ∈ jpegExts, bytesOf e <:+ name) ∧
    (formatOfName name = .png ↔ ∃ e ∈ pngExts, bytesOf e <:+ name) ∧ formatOfName name ≠ .ascii := by
  have key : ∀ l : List String, l ⊆ pnmExts ++ jpegExts ++ pngExts → ((∃ e ∈ l, bytesOf e <:+ name) ↔ ∃ e ∈ l, strrchr 46 name = some (bytesOf e)) := by
    intro l hl
    constructor
    · rintro ⟨e, h1, h2⟩
      exact ⟨e, h1, (strrchr_ext (hl h1)).mpr h2⟩
    · rintro ⟨e, h1, h2⟩
      exact ⟨e, h1, (strrchr_ext (hl h1)).mp h2⟩
  rw [key pnmExts (by decide), key jpegExts (by decide), key pngExts (by decide)]
  unfold formatOfName
  cases h : strrchr 46 name with
  | none => simp
  | some dot =>
    simp only [Option.some.injEq]
    have hd : ∀ a ∈ pnmExts, ∀ b ∈ jpegExts ++ pngExts, bytesOf a ≠ bytesOf b := by decide +kernel
    have hd2 : ∀ a ∈ jpegExts, ∀ b ∈ pngExts, bytesOf a ≠ bytesOf b := by decide +kernel
    have m1 : (∃ e ∈ pnmExts, dot = bytesOf e) ↔ (dot = bytesOf ".pgm" ∨ dot = bytesOf ".PGM" ∨ dot = bytesOf ".ppm" ∨ dot = bytesOf ".PPM") := by
      simp [pnmExts]
    have m2 : (∃ e ∈ jpegExts, dot = bytesOf e) ↔ (dot = bytesOf ".jpg" ∨ dot = bytesOf ".jpeg" ∨ dot = bytesOf ".JPG" ∨ dot = bytesOf ".JPEG") := by
      simp [jpegExts]
    have m3 : (∃ e ∈ pngExts, dot = bytesOf e) ↔ (dot = bytesOf ".png" ∨ dot = bytesOf ".PNG") := by
      simp [pngExts]
    by_cases h1 : ∃ e ∈ pnmExts, dot = bytesOf e
    · rw [if_pos (m1.mp h1)]
      obtain ⟨e, he, rfl⟩ := h1
      refine ⟨by simp only [true_iff]; exact ⟨e, he, rfl⟩, ?_, ?_, by simp⟩
      · simp only [reduceCtorEq, false_iff]
        rintro ⟨b, hb, hh⟩
        exact hd e he b (List.mem_append_left _ hb) hh
      · simp only [reduceCtorEq, false_iff]
        rintro ⟨b, hb, hh⟩
        exact hd e he b (List.mem_append_right _ hb) hh
    · rw [if_neg fun h => h1 (m1.mpr h)]
      by_cases h2 : ∃ e ∈ jpegExts, dot = bytesOf e
      · rw [if_pos (m2.mp h2)]
        refine ⟨by simp [h1], by simp only [true_iff]; exact h2, ?_, by simp⟩
        obtain ⟨e, he, rfl⟩ := h2
        simp only [reduceCtorEq, false_iff]
        rintro ⟨b, hb, hh⟩
        exact hd2 e he b hb hh
      · rw [if_neg fun h => h2 (m2.mpr h)]
        by_cases h3 : ∃ e ∈ pngExts, dot = bytesOf e
        · rw [if_pos (m3.mp h3)]
          simp [h1, h2, h3]
        · rw [if_neg fun h => h3 (m3.mpr h)]
          simp [h1, h2, h3]

/-! ## Headers -/

/-- C100. The kind of file that is read is decided by its first bytes alone; files of less than four bytes are not read. -/
theorem c100_header (s : Bytes) :
    (formatOfHeader (some s) = .pnm ↔ 4 ≤ s.length ∧ ∃ d ∈ ["P4", "P5", "P6"], bytesOf d <+: s) ∧
    (formatOfHeader (some s) = .ascii ↔ 4 ≤ s.length ∧ ∃ d ∈ ["P1", "P2", "P3"], bytesOf d <+: s) ∧
    (formatOfHeader (some s) = .jpeg ↔ 4 ≤ s.length ∧ [0xFF, 0xD8] <+: s) ∧
    (formatOfHeader (some s) = .png ↔ [0x89, 0x50, 0x4E, 0x47] <+: s) := by
  have b1 : bytesOf "P1" = [80, 49] ∧ bytesOf "P2" = [80, 50] ∧ bytesOf "P3" = [80, 51] ∧ bytesOf "P4" = [80, 52] ∧
    bytesOf "P5" = [80, 53] ∧ bytesOf "P6" = [80, 54] := by decide +kernel
  obtain ⟨e1, e2, e3, e4, e5, e6⟩ := b1
  simp only [List.mem_cons, List.not_mem_nil, or_false, exists_eq_or_imp, exists_eq_left, e1, e2, e3, e4, e5, e6]
  match s with
  | [] => simp [formatOfHeader]
  | [a] => simp [formatOfHeader]
  | [a, b] => simp [formatOfHeader]
  | [a, b, c] => simp [formatOfHeader]
  | m0 :: m1 :: m2 :: m3 :: t =>
    simp only [formatOfHeader, List.length_cons, List.cons_prefix_cons, List.nil_prefix, and_true]
    have hl : 4 ≤ t.length + 1 + 1 + 1 + 1 := by omega
    simp only [hl, true_and]
    by_cases h1 : m0 = 80
    · subst h1
      by_cases h2 : m1 = 52 ∨ m1 = 53 ∨ m1 = 54
      · rcases h2 with rfl | rfl | rfl <;> simp
      · by_cases h3 : m1 = 49 ∨ m1 = 50 ∨ m1 = 51
        · rcases h3 with rfl | rfl | rfl <;> simp
        · simp only [not_or] at h2 h3
          simp [h2, h3, Ne.symm h2.1, Ne.symm h2.2.1, Ne.symm h2.2.2, Ne.symm h3.1, Ne.symm h3.2.1, Ne.symm h3.2.2]
    · by_cases h2 : m0 = 0xFF
      · subst h2
        by_cases h3 : m1 = 0xD8
        · subst h3; simp
        · simp [h3, Ne.symm h3]
      · by_cases h3 : m0 = 0x89
        · subst h3
          by_cases h4 : m1 = 0x50 ∧ m2 = 0x4E ∧ m3 = 0x47
          · obtain ⟨rfl, rfl, rfl⟩ := h4
            simp
          · have h4' : ¬ ((0x50 : Byte) = m1 ∧ (0x4E : Byte) = m2 ∧ (0x47 : Byte) = m3) := fun ⟨a, b, c⟩ => h4 ⟨a.symm, b.symm, c.symm⟩
            simp [h4, h4']
        · simp [h1, h2, h3, Ne.symm h1, Ne.symm h2, Ne.symm h3]

/-! ## Saving and loading -/

section
variable {C : Codecs} {junk : Nat → Byte} {fs : Files}

/-- C100. What is loaded depends on the contents of the file only, not on its name. -/
theorem c100_content (mode : LoadMode) (n1 n2 : Bytes) (fs2 : Files) (h : fs n1 = fs2 n2) :
    imageLoad C junk n1 mode fs = imageLoad C junk n2 mode fs2 := by
  unfold imageLoad
  rw [h]

/-- C100. Saving changes no other file. -/
theorem c100_others {img : UImg} {name : Bytes} {fs' : Files} (h : imageSave C img name fs = .ok (some fs')) (p : Bytes) (hp : p ≠ name) :
    fs' p = fs p := by
  have key : ∀ o fs', writeFile fs name o = some fs' → fs' p = fs p := by
    intro o fs' e
    cases o with
    | none => cases e
    | some b =>
      cases e
      simp [Files.put, hp]
  unfold imageSave at h
  cases hf : formatOfName name <;> rw [hf] at h <;> simp only [Res.bind_eq_ok, Res.pure_eq, Res.ok.injEq] at h <;>
    obtain ⟨b, -, e⟩ := h <;> exact key _ _ e

theorem savePnm_format {img : UImg} (hw : img.Wf) : ∃ b, savePnm img = .ok b ∧ formatOfHeader (some b) = .pnm := by
  have hd : ∀ (c w h : Nat) (l m p : Bytes), ∃ x y z, [80, 53, 10] ++ intText w ++ [32] ++ l = 80 :: 53 :: x :: y :: z ∧
      [80, 54, 10] ++ intText w ++ [32] ++ l = 80 :: 54 :: x :: y :: z := by
    intro c w h l m p
    cases hi : intText w with
    | nil => exact ⟨10, 32, l, rfl, rfl⟩
    | cons a r => exact ⟨10, a, r ++ 32 :: l, by simp, by simp⟩
  cases ht : img.rgba with
  | false =>
    obtain ⟨p, e, -⟩ := savePnm_gray hw ht
    refine ⟨_, e, ?_⟩
    obtain ⟨x, y, z, h1, -⟩ := hd 0 img.width 0 (intText img.height ++ [32] ++ intText 255 ++ [10] ++ p) [] []
    have : pnmHeader false img.width img.height ++ p = 80 :: 53 :: x :: y :: z := by
      rw [← h1]
      simp [pnmHeader]
    rw [this]
    simp [formatOfHeader]
  | true =>
    obtain ⟨p, e, -⟩ := savePnm_color hw ht
    refine ⟨_, e, ?_⟩
    obtain ⟨x, y, z, -, h1⟩ := hd 0 img.width 0 (intText img.height ++ [10] ++ intText 255 ++ [10] ++ p) [] []
    have : pnmHeader true img.width img.height ++ p = 80 :: 54 :: x :: y :: z := by
      rw [← h1]
      simp [pnmHeader]
    rw [this]
    simp [formatOfHeader]

theorem imageSave_pnm {img : UImg} (hw : img.Wf) {name : Bytes} (hn : ∀ e ∈ jpegExts ++ pngExts, ¬ bytesOf e <:+ name) :
    ∃ b, savePnm img = .ok b ∧ imageSave C img name fs = .ok (some (fs.put name b)) ∧
      ∀ mode, imageLoad C junk name mode (fs.put name b) = loadPnm junk mode b := by
  obtain ⟨b, e1, e2⟩ := savePnm_format hw
  refine ⟨b, e1, ?_, ?_⟩
  · unfold imageSave
    have h2 : formatOfName name ≠ .jpeg := by
      rw [ne_eq, (c100_name name).2.1]
      rintro ⟨e, he, h⟩
      exact hn e (List.mem_append_left _ he) h
    have h3 : formatOfName name ≠ .png := by
      rw [ne_eq, (c100_name name).2.2.1]
      rintro ⟨e, he, h⟩
      exact hn e (List.mem_append_right _ he) h
    cases hf : formatOfName name
    · simp only [e1, Res.ok_bind]; rfl
    · simp only [e1, Res.ok_bind]; rfl
    · simp only [e1, Res.ok_bind]; rfl
    · exact absurd hf h2
    · exact absurd hf h3
  · intro mode
    have : (fs.put name b) name = some b := by simp [Files.put]
    unfold imageLoad
    rw [this, e2]

/-- C100. A gray image saved under a name without an extension of JPEG or PNG, whatever the extension is, is loaded again with its
pixels. -/
theorem c100_gray {img : UImg} {w h : Nat} {f : Nat → Nat → Byte} (hwf : img.Wf) (hs : img.ShowsGray w h f)
    (hw : w ≤ 2147483647) (hh : h ≤ 2147483647) (hsz : w * h ≤ 2147483647) {name : Bytes}
    (hn : ∀ e ∈ jpegExts ++ pngExts, ¬ bytesOf e <:+ name) :
    ∃ fs', imageXsave C img name fs = .ok fs' ∧ ∀ mode, mode ≠ .rgba →
      ∃ r, imageXload C junk name mode fs' = .ok r ∧ r.Wf ∧ r.ShowsGray w h f := by
  obtain ⟨b, e1, e2, e3⟩ := imageSave_pnm (C := C) (junk := junk) (fs := fs) hwf hn
  refine ⟨fs.put name b, by simp only [imageXsave, e2, Res.ok_bind]; rfl, ?_⟩
  intro mode hm
  obtain ⟨b', e4, e5⟩ := c47_gray hwf hs hw hh hsz
  rw [e1] at e4
  cases e4
  obtain ⟨r, -, e6, e7, e8⟩ := e5 junk mode [] hm
  rw [List.append_nil] at e6
  exact ⟨r, by simp only [imageXload, e3, e6, Res.ok_bind]; rfl, e7, e8⟩

/-- C100. The same for colour images, except for the alpha channel, which is not stored. -/
theorem c100_color {img : UImg} {w h : Nat} {f : Nat → Nat → Nat → Byte} {a : Nat → Nat → Byte} (hwf : img.Wf)
    (hs : img.ShowsColor w h f a) (hw : 4 * w ≤ 2147483647) (hh : h ≤ 2147483647) (hsz : 4 * w * h ≤ 2147483647) {name : Bytes}
    (hn : ∀ e ∈ jpegExts ++ pngExts, ¬ bytesOf e <:+ name) :
    ∃ fs', imageXsave C img name fs = .ok fs' ∧ ∀ mode, mode ≠ .gray →
      ∃ r, imageXload C junk name mode fs' = .ok r ∧ r.Wf ∧ r.ShowsColor w h f (fun _ _ => 255) := by
  obtain ⟨b, e1, e2, e3⟩ := imageSave_pnm (C := C) (junk := junk) (fs := fs) hwf hn
  refine ⟨fs.put name b, by simp only [imageXsave, e2, Res.ok_bind]; rfl, ?_⟩
  intro mode hm
  obtain ⟨b', e4, e5⟩ := c47_color hwf hs hw hh hsz
  rw [e1] at e4
  cases e4
  obtain ⟨r, -, e6, e7, e8⟩ := e5 junk mode [] hm
  rw [List.append_nil] at e6
  exact ⟨r, by simp only [imageXload, e3, e6, Res.ok_bind]; rfl, e7, e8⟩

/-- C100. A PNG or JPEG file that is written with its magic number is given to the function of its own kind when it is loaded. -/
theorem c100_codec {img : UImg} {name b : Bytes} :
    (∀ e ∈ pngExts, bytesOf e <:+ name → C.savePng img = .ok (some b) → [0x89, 0x50, 0x4E, 0x47] <+: b →
      ∃ fs', imageSave C img name fs = .ok (some fs') ∧ ∀ mode, imageLoad C junk name mode fs' = C.loadPng mode b) ∧
    (∀ e ∈ jpegExts, bytesOf e <:+ name → C.saveJpeg img = .ok (some b) → 4 ≤ b.length → [0xFF, 0xD8] <+: b →
      ∃ fs', imageSave C img name fs = .ok (some fs') ∧ ∀ mode, imageLoad C junk name mode fs' = C.loadJpeg mode b) := by
  have hput : (fs.put name b) name = some b := by simp [Files.put]
  constructor
  · intro e he h1 h2 h3
    have hf := (c100_name name).2.2.1.mpr ⟨e, he, h1⟩
    refine ⟨fs.put name b, by unfold imageSave; rw [hf]; simp only [h2, Res.ok_bind]; rfl, ?_⟩
    intro mode
    unfold imageLoad
    rw [hput, (c100_header b).2.2.2.mpr h3]
  · intro e he h1 h2 h3 h4
    have hf := (c100_name name).2.1.mpr ⟨e, he, h1⟩
    refine ⟨fs.put name b, by unfold imageSave; rw [hf]; simp only [h2, Res.ok_bind]; rfl, ?_⟩
    intro mode
    unfold imageLoad
    rw [hput, (c100_header b).2.2.1.mpr ⟨h3, h4⟩]

/-- C100. Missing files, files of less than four bytes, files with an unknown magic number, text PNM files and bitmaps (`P4`, though
recognised as binary PNM) are not loaded. -/
theorem c100_refused (mode : LoadMode) (name : Bytes) :
    (fs name = none → imageXload C junk name mode fs = .fatal) ∧
    ∀ s, fs name = some s →
      (s.length < 4 ∨ (∃ d ∈ ["P1", "P2", "P3", "P4"], bytesOf d <+: s) ∨
        ((∀ d ∈ ["P5", "P6"], ¬ bytesOf d <+: s) ∧ ¬ [0xFF, 0xD8] <+: s ∧ ¬ [0x89, 0x50, 0x4E, 0x47] <+: s)) →
      imageXload C junk name mode fs = .fatal := by
  have hx : imageLoad C junk name mode fs = .ok none → imageXload C junk name mode fs = .fatal := by
    intro e
    simp only [imageXload, e, Res.ok_bind]
    rfl
  constructor
  · intro h
    apply hx
    unfold imageLoad
    rw [h]
    rfl
  · intro s hs h
    apply hx
    have h4 : bytesOf "P4" <+: s → loadPnm junk mode s = .ok none := by
      rintro ⟨t, rfl⟩
      rfl
    obtain ⟨q1, q2, q3, q4⟩ := c100_header s
    unfold imageLoad
    rw [hs]
    cases hf : formatOfHeader (some s)
    · rfl
    · rfl
    · simp only
      obtain ⟨l, d, hd, hp⟩ := q1.mp hf
      rcases h with h | ⟨d', hd', hp'⟩ | ⟨h, -⟩
      · omega
      · have : d' ∈ ["P4"] := by
          have key : ∀ a ∈ ["P4", "P5", "P6"], ∀ b ∈ ["P1", "P2", "P3", "P4"], (bytesOf a).length = (bytesOf b).length ∧
              (bytesOf a = bytesOf b → b ∈ ["P4"]) := by decide +kernel
          obtain ⟨k1, k2⟩ := key d hd d' hd'
          apply k2
          rw [List.prefix_iff_eq_take] at hp hp'
          rw [hp, hp', k1]
        rw [List.mem_singleton] at this
        subst this
        exact h4 hp'
      · rw [List.mem_cons] at hd
        rcases hd with rfl | hd
        · exact h4 hp
        · exact absurd hp (h d hd)
    · obtain ⟨l, hp⟩ := q3.mp hf
      rcases h with h | ⟨d, hd, hp'⟩ | ⟨-, h, -⟩
      · omega
      · have key : ∀ b ∈ ["P1", "P2", "P3", "P4"], (bytesOf b).length = 2 ∧ bytesOf b ≠ [0xFF, 0xD8] := by decide +kernel
        obtain ⟨k1, k2⟩ := key d hd
        rw [List.prefix_iff_eq_take] at hp hp'
        rw [k1] at hp'
        exact absurd (hp'.trans hp.symm) k2
      · exact absurd hp h
    · have hp := q4.mp hf
      rcases h with h | ⟨d, hd, hp'⟩ | ⟨-, -, h⟩
      · have := hp.length_le
        simp only [List.length_cons, List.length_nil] at this
        omega
      · have key : ∀ b ∈ ["P1", "P2", "P3", "P4"], ∃ c, bytesOf b = [80, c] := by
          intro b hb
          have : bytesOf b = [80, (bytesOf b).getLast?.getD 0] := by revert b; decide +kernel
          exact ⟨_, this⟩
        obtain ⟨c, hc⟩ := key d hd
        rw [hc] at hp'
        obtain ⟨t, rfl⟩ := hp
        simp at hp'
      · exact absurd hp h

end

/-! ## Sequences -/

section
variable {D : Type} {scan : Bytes → Option (D × Bytes)}

/-- `H` holds by columns the 3×3 matrix that `l` lists by rows. -/
def ByColumns3 (l H : List D) : Prop := H.length = 9 ∧ ∀ r < 3, ∀ c < 3, H[c * 3 + r]? = l[r * 3 + c]?

theorem forLoop_three {σ : Type} (body : Nat → σ → Res σ) (s : σ) :
    forLoop 3 body 0 s = (body 0 s >>= fun s => body 1 s >>= fun s => body 2 s) := by
  rw [forLoop, if_pos (by omega)]
  congr 1
  funext s1
  rw [forLoop, if_pos (by omega)]
  congr 1
  funext s2
  rw [forLoop, if_pos (by omega)]
  cases body (0 + 1 + 1) s2 with
  | ok s3 => rw [Res.ok_bind, forLoop, if_neg (by omega)]
  | fatal => rfl
  | ub => rfl

theorem vggMatrix_ok (junk : D) {t u : Bytes} {l : List D} (h : Reads scan t l u) (hl : l.length = 9) :
    ∃ H, vggMatrix scan junk t = .ok H ∧ ByColumns3 l H := by
  match l, hl with
  | [a0, a1, a2, a3, a4, a5, a6, a7, a8], _ =>
    cases h with | cons h0 h =>
    cases h with | cons h1 h =>
    cases h with | cons h2 h =>
    cases h with | cons h3 h =>
    cases h with | cons h4 h =>
    cases h with | cons h5 h =>
    cases h with | cons h6 h =>
    cases h with | cons h7 h =>
    cases h with | cons h8 h =>
    refine ⟨[a0, a3, a6, a1, a4, a7, a2, a5, a8], ?_, rfl, ?_⟩
    · simp [vggMatrix, forLoop_three, vggCell, h0, h1, h2, h3, h4, h5, h6, h7, h8, writeAt, List.replicate]
    · intro r hr c hc
      match r, hr, c, hc with
      | 0, _, 0, _ => rfl
      | 0, _, 1, _ => rfl
      | 0, _, 2, _ => rfl
      | 1, _, 0, _ => rfl
      | 1, _, 1, _ => rfl
      | 1, _, 2, _ => rfl
      | 2, _, 0, _ => rfl
      | 2, _, 1, _ => rfl
      | 2, _, 2, _ => rfl

theorem vggMatrix_short (junk : D) {t u : Bytes} {l : List D} (h : Reads scan t l u) (hu : scan u = none) (hl : l.length < 9) :
    vggMatrix scan junk t = .fatal := by
  match l, hl with
  | [], _ =>
    cases h
    simp [vggMatrix, forLoop_three, vggCell, hu]
  | [a0], _ =>
    cases h with | cons h0 h =>
    cases h
    simp [vggMatrix, forLoop_three, vggCell, h0, hu, writeAt, List.replicate]
  | [a0, a1], _ =>
    cases h with | cons h0 h =>
    cases h with | cons h1 h =>
    cases h
    simp [vggMatrix, forLoop_three, vggCell, h0, h1, hu, writeAt, List.replicate]
  | [a0, a1, a2], _ =>
    cases h with | cons h0 h =>
    cases h with | cons h1 h =>
    cases h with | cons h2 h =>
    cases h
    simp [vggMatrix, forLoop_three, vggCell, h0, h1, h2, hu, writeAt, List.replicate]
  | [a0, a1, a2, a3], _ =>
    cases h with | cons h0 h =>
    cases h with | cons h1 h =>
    cases h with | cons h2 h =>
    cases h with | cons h3 h =>
    cases h
    simp [vggMatrix, forLoop_three, vggCell, h0, h1, h2, h3, hu, writeAt, List.replicate]
  | [a0, a1, a2, a3, a4], _ =>
    cases h with | cons h0 h =>
    cases h with | cons h1 h =>
    cases h with | cons h2 h =>
    cases h with | cons h3 h =>
    cases h with | cons h4 h =>
    cases h
    simp [vggMatrix, forLoop_three, vggCell, h0, h1, h2, h3, h4, hu, writeAt, List.replicate]
  | [a0, a1, a2, a3, a4, a5], _ =>
    cases h with | cons h0 h =>
    cases h with | cons h1 h =>
    cases h with | cons h2 h =>
    cases h with | cons h3 h =>
    cases h with | cons h4 h =>
    cases h with | cons h5 h =>
    cases h
    simp [vggMatrix, forLoop_three, vggCell, h0, h1, h2, h3, h4, h5, hu, writeAt, List.replicate]
  | [a0, a1, a2, a3, a4, a5, a6], _ =>
    cases h with | cons h0 h =>
    cases h with | cons h1 h =>
    cases h with | cons h2 h =>
    cases h with | cons h3 h =>
    cases h with | cons h4 h =>
    cases h with | cons h5 h =>
    cases h with | cons h6 h =>
    cases h
    simp [vggMatrix, forLoop_three, vggCell, h0, h1, h2, h3, h4, h5, h6, hu, writeAt, List.replicate]
  | [a0, a1, a2, a3, a4, a5, a6, a7], _ =>
    cases h with | cons h0 h =>
    cases h with | cons h1 h =>
    cases h with | cons h2 h =>
    cases h with | cons h3 h =>
    cases h with | cons h4 h =>
    cases h with | cons h5 h =>
    cases h with | cons h6 h =>
    cases h with | cons h7 h =>
    cases h
    simp [vggMatrix, forLoop_three, vggCell, h0, h1, h2, h3, h4, h5, h6, h7, hu, writeAt, List.replicate]

variable {files : Files} {dirs : Bytes → Bool} {base name : Bytes} (junk zero one : D)

theorem vggKnown_iff : vggKnown name = true ↔ ∃ s ∈ vggNames, bytesOf s <+: name := by
  rw [vggKnown, List.any_eq_true]
  simp only [List.isPrefixOf_iff_prefix]

/-- C101. A sequence is loaded: six matrices, the first the unit matrix, the others as they are in the files. -/
theorem c101_load (hb : dirs base = true) (hn : ∃ s ∈ vggNames, bytesOf s <+: name) (hd : dirs (base ++ bytesOf "/" ++ name) = true)
    (t : Nat → Bytes) (l : Nat → List D) (u : Nat → Bytes)
    (hf : ∀ i, 2 ≤ i → i ≤ 6 → files (base ++ bytesOf "/" ++ name ++ bytesOf "/H1to" ++ natText i ++ bytesOf "p") = some (t i))
    (hr : ∀ i, 2 ≤ i → i ≤ 6 → Reads scan (t i) (l i) (u i) ∧ (l i).length = 9) :
    ∃ q, vggNew scan junk zero one files dirs base name = .ok q ∧ q.base = base ∧ q.name = name ∧ q.length = 6 ∧ q.h.length = 6 ∧
      (∃ H, q.h[0]? = some H ∧ ByColumns3 [one, zero, zero, zero, one, zero, zero, zero, one] H) ∧
      ∀ i, 2 ≤ i → i ≤ 6 → ∃ H, q.h[i - 1]? = some H ∧ ByColumns3 (l i) H := by
  obtain ⟨h, e, q1, q2, q3⟩ := forLoop_spec (n := 6) (body := vggStep scan junk files base name) (i0 := 1)
    (s := [[one, zero, zero, zero, one, zero, zero, zero, one], [], [], [], [], []])
    (fun i h => h.length = 6 ∧ h[0]? = some [one, zero, zero, zero, one, zero, zero, zero, one] ∧
      ∀ j, 2 ≤ j → j ≤ i → ∃ H, h[j - 1]? = some H ∧ ByColumns3 (l j) H) (by omega) ⟨rfl, rfl, by intro j h1 h2; omega⟩ (by
      intro i h h1 h2 ⟨p1, p2, p3⟩
      obtain ⟨r1, r2⟩ := hr (i + 1) (by omega) (by omega)
      obtain ⟨H, e, b⟩ := vggMatrix_ok junk r1 r2
      refine ⟨h.set i H, ?_, by simp [p1], ?_, ?_⟩
      · have : files (vggHFile base name (i + 1)) = some (t (i + 1)) := hf (i + 1) (by omega) (by omega)
        unfold vggStep
        rw [this]
        simp only [e, Res.ok_bind]
        exact writeAt_ok _ (by omega)
      · rw [List.getElem?_set_ne (by omega)]
        exact p2
      · intro j h3 h4
        by_cases hj : j = i + 1
        · subst hj
          exact ⟨H, by rw [Nat.add_sub_cancel, List.getElem?_set_self (by omega)], b⟩
        · obtain ⟨H', e', b'⟩ := p3 j h3 (by omega)
          exact ⟨H', by rw [List.getElem?_set_ne (by omega)]; exact e', b'⟩)
  refine ⟨⟨base, name, 6, h⟩, ?_, rfl, rfl, rfl, q1, ⟨_, q2, rfl, ?_⟩, q3⟩
  · unfold vggNew
    have hd' : dirs (vggDir base name) = true := hd
    rw [if_neg (by simp [hb]), if_neg (by simp [vggKnown_iff.mpr hn]), if_neg (by simp [hd'])]
    have : vggTruth scan junk zero one files base name 6 = .ok h := e
    rw [this]
    rfl
  · intro r hr c hc
    match r, hr, c, hc with
    | 0, _, 0, _ => rfl
    | 0, _, 1, _ => rfl
    | 0, _, 2, _ => rfl
    | 1, _, 0, _ => rfl
    | 1, _, 1, _ => rfl
    | 1, _, 2, _ => rfl
    | 2, _, 0, _ => rfl
    | 2, _, 1, _ => rfl
    | 2, _, 2, _ => rfl

/-- C101. A sequence that was loaded had all that is needed: directories, a name that begins with one of the eight names, and five files
that begin with nine numbers. -/
theorem c101_needs (hsh : ∀ t d u, scan t = some (d, u) → u.length < t.length) {q : VggSeq D}
    (h : vggNew scan junk zero one files dirs base name = .ok q) :
    dirs base = true ∧ (∃ s ∈ vggNames, bytesOf s <+: name) ∧ dirs (base ++ bytesOf "/" ++ name) = true ∧
    ∀ i, 2 ≤ i → i ≤ 6 → ∃ t l u, files (base ++ bytesOf "/" ++ name ++ bytesOf "/H1to" ++ natText i ++ bytesOf "p") = some t ∧
      Reads scan t l u ∧ l.length = 9 := by
  unfold vggNew at h
  split at h
  · cases h
  rename_i h1
  split at h
  · cases h
  rename_i h2
  split at h
  · cases h
  rename_i h3
  simp only [Decidable.not_not] at h1 h2 h3
  refine ⟨h1, vggKnown_iff.mp h2, h3, ?_⟩
  rw [Res.bind_eq_ok] at h
  obtain ⟨hh, e, -⟩ := h
  have := forLoop_inv (n := 6) (body := vggStep scan junk files base name)
    (fun i _ => ∀ j, 2 ≤ j → j ≤ i → ∃ t l u, files (vggHFile base name j) = some t ∧ Reads scan t l u ∧ l.length = 9) (by
      intro i s s' _ hp hb j h4 h5
      by_cases hj : j = i + 1
      · subst hj
        unfold vggStep at hb
        cases ef : files (vggHFile base name (i + 1)) with
        | none => rw [ef] at hb; cases hb
        | some t =>
          rw [ef] at hb
          simp only [Res.bind_eq_ok] at hb
          obtain ⟨H, e1, -⟩ := hb
          obtain ⟨l, u, r1, r2⟩ := exists_nums hsh t
          by_cases hl : l.length < 9
          · rw [vggMatrix_short junk r1 r2 hl] at e1
            cases e1
          · obtain ⟨v, r3, -⟩ := reads_split r1 9 (by omega)
            exact ⟨t, l.take 9, v, rfl, r3, by rw [List.length_take]; omega⟩
      · exact hp j h4 (by omega)) 5 1 _ hh rfl (by omega) (by intro j h1 h2; omega) e
  exact this

/-- C101. Otherwise the program ends; nothing is undefined. -/
theorem c101_fatal (hsh : ∀ t d u, scan t = some (d, u) → u.length < t.length) :
    (∃ q, vggNew scan junk zero one files dirs base name = .ok q) ∨ vggNew scan junk zero one files dirs base name = .fatal := by
  by_cases h1 : ¬ dirs base = true
  · right; unfold vggNew; rw [if_pos h1]
  by_cases h2 : ¬ vggKnown name = true
  · right; unfold vggNew; rw [if_neg h1, if_pos h2]
  by_cases h3 : ¬ dirs (vggDir base name) = true
  · right; unfold vggNew; rw [if_neg h1, if_neg h2, if_pos h3]
  have hm : ∀ t, (∃ H, vggMatrix scan junk t = .ok H) ∨ vggMatrix scan junk t = .fatal := by
    intro t
    obtain ⟨l, u, r1, r2⟩ := exists_nums hsh t
    by_cases hl : l.length < 9
    · exact Or.inr (vggMatrix_short junk r1 r2 hl)
    · obtain ⟨v, r3, -⟩ := reads_split r1 9 (by omega)
      obtain ⟨H, e, -⟩ := vggMatrix_ok junk r3 (by rw [List.length_take]; omega)
      exact Or.inl ⟨H, e⟩
  have hloop : ∀ k i h, 6 - i = k → i ≤ 6 → h.length = 6 → (∃ s, forLoop 6 (vggStep scan junk files base name) i h = .ok s) ∨
      forLoop 6 (vggStep scan junk files base name) i h = .fatal := by
    intro k
    induction k with
    | zero =>
      intro i h hk hi _
      left
      rw [forLoop, if_neg (by omega)]
      exact ⟨_, rfl⟩
    | succ k ih =>
      intro i h hk hi hl
      rw [forLoop, if_pos (by omega)]
      have hs : (∃ s, vggStep scan junk files base name i h = .ok s ∧ s.length = 6) ∨ vggStep scan junk files base name i h = .fatal := by
        unfold vggStep
        cases files (vggHFile base name (i + 1)) with
        | none => exact Or.inr rfl
        | some t =>
          rcases hm t with ⟨H, e⟩ | e
          · left
            simp only [e, Res.ok_bind]
            exact ⟨_, writeAt_ok _ (by omega), by simp [hl]⟩
          · right
            simp only [e]
            rfl
      rcases hs with ⟨s, e, l⟩ | e
      · rw [e, Res.ok_bind]
        exact ih (i + 1) s (by omega) (by omega) l
      · rw [e]
        exact Or.inr rfl
  unfold vggNew
  rw [if_neg h1, if_neg h2, if_neg h3]
  rcases hloop 5 1 [[one, zero, zero, zero, one, zero, zero, zero, one], [], [], [], [], []] rfl (by omega) rfl with ⟨s, e⟩ | e
  · left
    have : vggTruth scan junk zero one files base name 6 = .ok s := e
    rw [this]
    exact ⟨_, rfl⟩
  · right
    have : vggTruth scan junk zero one files base name 6 = .fatal := e
    rw [this]
    rfl

/-- C101. Freeing a loaded sequence frees each matrix once. -/
theorem c101_free (q : VggSeq D) (h : q.h.length = q.length) : vggFree q = .ok (List.range q.length) := by
  obtain ⟨s, e, hs⟩ := forLoop_spec (n := q.length) (body := fun i fr => do
    let _ ← readAt q.h i
    pure (fr ++ [i])) (i0 := 0) (s := ([] : List Nat)) (fun i s => s = List.range i) (by omega) rfl (by
      intro i s _ hi e
      subst e
      refine ⟨List.range (i + 1), ?_, rfl⟩
      rw [readAt_ok (by omega), Res.ok_bind, List.range_succ]
      rfl)
  unfold vggFree
  rw [e, hs]

/-- C101. A frame is loaded from its `.ppm` file, from its `.pgm` file if that cannot be loaded, and there is no other frame. -/
theorem c101_frame (C : Codecs) (jb : Nat → Byte) (q : VggSeq D) (frame : Int) (mode : LoadMode) (img : UImg) :
    vggLoadFrame C jb files q frame mode = .ok img ↔ 0 ≤ frame ∧ frame < q.length ∧
      (imageLoad C jb (vggFrame q.base q.name (frame.toNat + 1) ".ppm") mode files = .ok (some img) ∨
        (imageLoad C jb (vggFrame q.base q.name (frame.toNat + 1) ".ppm") mode files = .ok none ∧
          imageLoad C jb (vggFrame q.base q.name (frame.toNat + 1) ".pgm") mode files = .ok (some img))) := by
  unfold vggLoadFrame
  by_cases h : frame < 0 ∨ frame > (q.length : Int) - 1
  · rw [if_pos h]
    constructor
    · intro e; cases e
    · intro ⟨h1, h2, _⟩; omega
  · rw [if_neg h]
    have h' : 0 ≤ frame ∧ frame < q.length := by omega
    rw [Res.bind_eq_ok]
    constructor
    · rintro ⟨o, e1, e2⟩
      refine ⟨h'.1, h'.2, ?_⟩
      cases o with
      | some i =>
        cases e2
        exact Or.inl e1
      | none =>
        simp only [imageXload, Res.bind_eq_ok] at e2
        obtain ⟨o, e2, e3⟩ := e2
        cases o with
        | none => cases e3
        | some i =>
          cases e3
          exact Or.inr ⟨e1, e2⟩
    · rintro ⟨-, -, e | ⟨e1, e2⟩⟩
      · exact ⟨_, e, rfl⟩
      · refine ⟨_, e1, ?_⟩
        simp only [imageXload, e2, Res.ok_bind]
        rfl

/-- C101. The eight names are accepted, but also all names that begin with one of them. -/
theorem c101_names : vggNames.length = 8 ∧ vggNames.Nodup ∧ (∀ s ∈ vggNames, vggKnown (bytesOf s) = true) ∧
    "graffiti" ∉ vggNames ∧ vggKnown (bytesOf "graffiti") = true := by
  decide +kernel

end

/-- C101. Different sequences, frames and kinds have different files. -/
theorem c101_paths (base name name' : Bytes) (hn : (47 : Byte) ∉ name) (hn' : (47 : Byte) ∉ name') (i i' : Nat) (e e' : String)
    (he : e = ".ppm" ∨ e = ".pgm") (he' : e' = ".ppm" ∨ e' = ".pgm") (h : vggFrame base name i e = vggFrame base name' i' e') :
    name = name' ∧ i = i' ∧ e = e' := by
  unfold vggFrame vggDir at h
  simp only [List.append_assoc] at h
  have h := List.append_cancel_left (List.append_cancel_left h)
  have e1 : bytesOf "/img" = 47 :: bytesOf "img" := rfl
  rw [e1] at h
  have tw : ∀ (n r : Bytes), (47 : Byte) ∉ n → (n ++ 47 :: r).takeWhile (· != 47) = n := by
    intro n r hn
    rw [List.takeWhile_append_of_pos (by
      intro b hb
      simp only [bne_iff_ne, ne_eq]
      rintro rfl
      exact hn hb)]
    simp
  have hw := congrArg (List.takeWhile (· != 47)) h
  simp only [List.cons_append] at hw h
  rw [tw _ _ hn, tw _ _ hn'] at hw
  subst hw
  have h := List.append_cancel_left h
  rw [List.cons.injEq] at h
  have h := List.append_cancel_left h.2
  have hl : ∀ e : String, e = ".ppm" ∨ e = ".pgm" → (bytesOf e).length = 4 := by
    rintro e (rfl | rfl) <;> rfl
  obtain ⟨h1, h2⟩ := List.append_inj' h (by rw [hl e he, hl e' he'])
  have := congrArg (digitsVal 10 0) h1
  rw [digitsVal_natText, digitsVal_natText] at this
  refine ⟨rfl, this, ?_⟩
  have hne : bytesOf ".ppm" ≠ bytesOf ".pgm" := by decide +kernel
  rcases he with rfl | rfl <;> rcases he' with rfl | rfl
  · rfl
  · exact absurd h2 hne
  · exact absurd h2.symm hne
  · rfl

/-! ## Examples -/

/-- Kinds of files; mixed case is unknown, and so written as PNM. -/
example : formatOfName (bytesOf "a.b/x.y.pgm") = .pnm ∧ formatOfName (bytesOf "x.JPEG") = .jpeg ∧ formatOfName (bytesOf "x.png") = .png ∧
    formatOfName (bytesOf "x.Png") = .unknown ∧ formatOfName (bytesOf "png") = .unknown ∧ formatOfName (bytesOf "x.png/y") = .unknown := by
  decide +kernel

/-- Codecs for the examples: a magic number followed by the samples of a gray image of one column. -/
def demoCodecs : Codecs where
  saveJpeg img := .ok (some ([0xFF, 0xD8, 0, 0] ++ img.data))
  savePng img := .ok (some ([0x89, 0x50, 0x4E, 0x47] ++ img.data))
  loadJpeg _ b := .ok (some ⟨false, 1, b.length - 4, 1, b.drop 4⟩)
  loadPng _ b := .ok (some ⟨false, 1, b.length - 4, 1, b.drop 4⟩)

/-- An image saved as `x.bmp` is a PNM file and is loaded again. -/
example : ∀ e ∈ jpegExts ++ pngExts, ¬ bytesOf e <:+ bytesOf "x.bmp" := by decide +kernel

example : (do
      let fs ← imageXsave demoCodecs ⟨false, 2, 1, 3, [5, 6, 7]⟩ (bytesOf "x.bmp") (fun _ => none)
      let r ← imageXload demoCodecs (fun _ => 9) (bytesOf "x.bmp") .asIs fs
      pure (fs (bytesOf "x.bmp"), r)) = .ok (some (bytesOf "P5\n2 1 255\n" ++ [5, 6]), ⟨false, 2, 1, 2, [5, 6]⟩) := by decide +kernel

example : (do
      let fs ← imageXsave demoCodecs ⟨false, 1, 2, 1, [5, 6]⟩ (bytesOf "x.png") (fun _ => none)
      imageXload demoCodecs (fun _ => 9) (bytesOf "x.png") .asIs fs) = .ok ⟨false, 1, 2, 1, [5, 6]⟩ := by decide +kernel

/-- A sequence with small numbers, a frame in colour and one in gray. -/
def demoVgg : Files := fun p =>
  if p = bytesOf "v/boat/H1to2p" then some (bytesOf "1 2 3\n4 5 6\n7 8 9\n")
  else if p = bytesOf "v/boat/H1to3p" then some (bytesOf "1 0 0 0 1 0 0 0 1")
  else if p = bytesOf "v/boat/H1to4p" then some (bytesOf "1 0 0 0 1 0 0 0 1 5")
  else if p = bytesOf "v/boat/H1to5p" then some (bytesOf "1 0 0 0 1 0 0 0 1")
  else if p = bytesOf "v/boat/H1to6p" then some (bytesOf "9 8 7 6 5 4 3 2 1")
  else if p = bytesOf "v/boat/img1.ppm" then some (bytesOf "P6 1 1 255\nabc")
  else if p = bytesOf "v/boat/img2.pgm" then some (bytesOf "P5 1 1 255\na")
  else none

example : (match vggNew scanDigit 77 0 1 demoVgg (fun _ => true) (bytesOf "v") (bytesOf "boat") with
    | .ok q => decide (q.h = [[1, 0, 0, 0, 1, 0, 0, 0, 1], [1, 4, 7, 2, 5, 8, 3, 6, 9], [1, 0, 0, 0, 1, 0, 0, 0, 1],
          [1, 0, 0, 0, 1, 0, 0, 0, 1], [1, 0, 0, 0, 1, 0, 0, 0, 1], [9, 6, 3, 8, 5, 2, 7, 4, 1]] ∧
        vggFree q = .ok [0, 1, 2, 3, 4, 5] ∧
        vggLoadFrame demoCodecs (fun _ => 9) demoVgg q 0 .asIs = .ok ⟨true, 1, 1, 4, [97, 98, 99, 255]⟩ ∧
        vggLoadFrame demoCodecs (fun _ => 9) demoVgg q 1 .asIs = .ok ⟨false, 1, 1, 1, [97]⟩ ∧
        vggLoadFrame demoCodecs (fun _ => 9) demoVgg q 2 .asIs = .fatal ∧ vggLoadFrame demoCodecs (fun _ => 9) demoVgg q 6 .asIs = .fatal)
    | _ => false) = true := by decide +kernel

end Nx
