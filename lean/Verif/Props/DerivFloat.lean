import Verif.Model.DerivFloat
import Verif.Props.ImageArith
import Verif.Props.SmoothFloat

/-!
# C155: derivatives of images in `float` arithmetic
-/

namespace Nx

variable {β : Type} {diff : β → β → Rat} {S : Rat} {junk : Nat → Rat} {dest : GImage Rat} {src : GImage β} {w h : Nat}
  {f : Nat → Nat → β}

/-! ## The loops -/

/-- One line of the derivative. -/
def floatDeriv (diff : β → β → Rat) (S : Rat) (n : Nat) (s : Nat → β) (i : Nat) : Rat :=
  if i = 0 then edgeDeriv S (diff (s 1) (s 0))
  else if i = n - 1 then edgeDeriv S (diff (s (n - 1)) (s (n - 2)))
  else innerDeriv S (diff (s (i + 1)) (s (i - 1)))

theorem floatDeriv_first {n : Nat} {s : Nat → β} : floatDeriv diff S n s 0 = edgeDeriv S (diff (s 1) (s 0)) := rfl

theorem floatDeriv_last {n : Nat} {s : Nat → β} (hn : 2 ≤ n) :
    floatDeriv diff S n s (n - 1) = edgeDeriv S (diff (s (n - 1)) (s (n - 2))) := by
  unfold floatDeriv
  rw [if_neg (by omega), if_pos rfl]

theorem floatDeriv_inner {n : Nat} {s : Nat → β} {i : Nat} (h0 : 0 < i) (h1 : i + 1 < n) :
    floatDeriv diff S n s i = innerDeriv S (diff (s (i + 1)) (s (i - 1))) := by
  unfold floatDeriv
  rw [if_neg (by omega), if_neg (by omega)]

theorem derivXRowFl_spec {st H : Nat} (hs : src.Shows w h f) (hw : 2 ≤ w) (hst : w ≤ st) {y : Nat} (hy : y < H) (hyh : y < h)
    {d : List Rat} {g : Nat → Nat → Rat} (hp : Pix st w H d g) :
    ∃ d', derivXRowFl diff S src st w y d = .ok d' ∧
      Pix st w H d' (fun x' y' => if y' = y then floatDeriv diff S w (fun i => f i y) x' else g x' y') := by
  obtain ⟨d1, e1, h1⟩ := hp.write hst (x := 0) (y := y) (by omega) hy (edgeDeriv S (diff (f 1 y) (f 0 y)))
  obtain ⟨d2, e2, h2⟩ := pixels_spec (st := st) (w := w) (H := H) (y := y) (body := derivXBodyFl diff S src st y)
    (φ := fun x _ => innerDeriv S (diff (f (x + 1) y) (f (x - 1) y))) (i0 := 1) (n := w - 1) hst hy (by omega) (by omega) (by
      intro x d g hx0 hx _
      unfold derivXBodyFl
      rw [hs.read (x := x + 1) (y := y) (by omega) hyh, hs.read (x := x - 1) (y := y) (by omega) hyh]
      rfl) h1
  obtain ⟨d3, e3, h3⟩ := h2.write hst (x := w - 1) (y := y) (by omega) hy (edgeDeriv S (diff (f (w - 1) y) (f (w - 2) y)))
  refine ⟨d3, ?_, h3.congr ?_⟩
  · unfold derivXRowFl
    rw [hs.read (x := 1) (y := y) (by omega) hyh]
    have r0 := hs.read (x := 0) (y := y) (by omega) hyh
    rw [Nat.add_zero] at r0 e1
    rw [r0]
    simp only [Res.ok_bind]
    rw [e1]
    simp only [Res.ok_bind]
    rw [e2]
    simp only [Res.ok_bind]
    have ew := hs.width_eq
    rw [ew, readI_nat (k := y * src.stride + (w - 1)) (by push_cast; omega),
      readI_nat (k := y * src.stride + (w - 2)) (by push_cast; omega), hs.read (x := w - 1) (y := y) (by omega) hyh,
      hs.read (x := w - 2) (y := y) (by omega) hyh]
    simp only [Res.ok_bind]
    rw [writeI_nat (k := y * st + (w - 1)) (by push_cast; omega)]
    exact e3
  · intro x' y' hx' _
    by_cases hyy : y' = y
    · subst hyy
      rw [if_pos rfl]
      by_cases hl : x' = w - 1
      · rw [if_pos ⟨hl, rfl⟩, hl, floatDeriv_last hw]
      · rw [if_neg (by omega)]
        by_cases h0 : x' = 0
        · subst h0
          rw [if_neg (by omega), if_pos ⟨rfl, rfl⟩, floatDeriv_first]
        · rw [if_pos ⟨rfl, by omega⟩, floatDeriv_inner (i := x') (by omega) (by omega)]
    · rw [if_neg hyy, if_neg (by omega), if_neg (by omega), if_neg (by omega)]

theorem derivXFl_spec (hd : dest.Wf) (hw : src.Wf) (hsz : src.data.length ≤ 2147483647) (hs : src.Shows w h f) (h2 : 2 ≤ w) :
    ∃ d, derivXFl diff S junk dest src = .ok d ∧ d.Wf ∧
      d.Shows w h (fun x y => floatDeriv diff S w (fun i => f i y) x) := by
  have e1 := hs.width_eq
  have e2 := hs.height_eq
  have hprod : src.width * src.height ≤ 2147483647 := by
    have h1 : src.width * src.height ≤ src.stride * src.height := Nat.mul_le_mul_right _ hw.stride_ge
    rw [← hw.length_eq] at h1
    omega
  obtain ⟨d, ed, dw, dh, ds, dl⟩ := gResize_ok (junk := junk) (st := 0) hd hprod (Nat.zero_le _)
  rw [e1] at dw ds
  rw [e2] at dh
  have dl' : d.data.length = d.stride * h := by rw [dl, e1, e2, ds]
  obtain ⟨g, hg⟩ := Pix.exists (st := d.stride) (w := w) (H := h) dl' (by omega)
  obtain ⟨r, er, hP⟩ := rows_spec (n := h) (i0 := 0) (row := fun y d' => derivXRowFl diff S src d.stride w y d')
    (T := fun y _ x => floatDeriv diff S w (fun i => f i y) x) (Nat.zero_le _) (by
      intro y d' g' _ hy hp
      exact derivXRowFl_spec hs h2 (by omega) hy hy hp) hg
  refine ⟨{ d with data := r }, ?_, ⟨by simp only; omega, by simp only [hP.len, dh]⟩, dw, dh, ?_⟩
  · unfold derivXFl
    rw [ed]
    simp only [Res.ok_bind, dw, e2, er]
    rfl
  · intro x y hx hy
    have := hP.at' x y hx hy
    rw [if_pos ⟨Nat.zero_le _, hy⟩] at this
    exact this

/-- What the vertical derivative writes: the last row depends on the memory of the source, read with the stride of the
destination. -/
theorem derivYFl_spec (hd : dest.Wf) (hw : src.Wf) (hsz : src.data.length ≤ 2147483647) (hs : src.Shows w h f) (h2 : 2 ≤ h)
    (p q : Nat → β) (hp : ∀ x < w, src.data[x + (h - 1) * w]? = some (p x)) (hq : ∀ x < w, src.data[x + (h - 2) * w]? = some (q x)) :
    ∃ d, derivYFl diff S junk dest src = .ok d ∧ d.Wf ∧
      d.Shows w h (fun x y => if y = h - 1 then edgeDeriv S (diff (p x) (q x))
        else floatDeriv diff S h (fun i => f x i) y) := by
  have e1 := hs.width_eq
  have e2 := hs.height_eq
  have hprod : src.width * src.height ≤ 2147483647 := by
    have h1 : src.width * src.height ≤ src.stride * src.height := Nat.mul_le_mul_right _ hw.stride_ge
    rw [← hw.length_eq] at h1
    omega
  obtain ⟨d, ed, dw, dh, ds, dl⟩ := gResize_ok (junk := junk) (st := 0) hd hprod (Nat.zero_le _)
  rw [e1] at dw ds
  rw [e2] at dh
  have dl' : (d.data.map (fun _ => (0 : Rat))).length = w * h := by rw [List.length_map, dl, e1, e2]
  obtain ⟨g, hg⟩ := Pix.exists (st := w) (w := w) (H := h) dl' (Nat.le_refl _)
  obtain ⟨d1, r1, h1⟩ := pixels_spec (st := w) (w := w) (H := h) (y := 0) (body := derivYFirstFl diff S src)
    (φ := fun x _ => edgeDeriv S (diff (f x 1) (f x 0))) (i0 := 0) (n := w) (Nat.le_refl _) (by omega) (Nat.le_refl _)
    (Nat.zero_le _) (by
      intro x d g _ hx _
      have a := hs.read (x := x) (y := 1) hx (by omega)
      have b := hs.read (x := x) (y := 0) hx (by omega)
      rw [Nat.one_mul, Nat.add_comm] at a
      rw [Nat.zero_mul, Nat.zero_add] at b
      unfold derivYFirstFl
      rw [a, b]
      simp only [Res.ok_bind, Nat.zero_mul, Nat.zero_add]) hg
  obtain ⟨d2, r2, h2'⟩ := rows_spec (st := w) (w := w) (H := h) (n := h - 1) (i0 := 1)
    (row := fun y d => forLoop w (derivYBodyFl diff S src w y) 0 d)
    (T := fun y _ x => innerDeriv S (diff (f x (y + 1)) (f x (y - 1)))) (by omega) (by
      intro y d g hy0 hy hP
      obtain ⟨d', e, hP'⟩ := pixels_spec (st := w) (w := w) (H := h) (y := y) (body := derivYBodyFl diff S src w y)
        (φ := fun x _ => innerDeriv S (diff (f x (y + 1)) (f x (y - 1)))) (i0 := 0) (n := w) (Nat.le_refl _) (by omega)
        (Nat.le_refl _) (Nat.zero_le _) (by
          intro x d g _ hx _
          unfold derivYBodyFl
          rw [hs.read (x := x) (y := y + 1) hx (by omega), hs.read (x := x) (y := y - 1) hx (by omega)]
          rfl) hP
      refine ⟨d', e, hP'.congr ?_⟩
      intro x' y' hx' _
      by_cases hc : y' = y
      · rw [if_pos ⟨hc, Nat.zero_le _, hx'⟩, if_pos hc]
      · rw [if_neg (by omega), if_neg hc]) h1
  obtain ⟨d3, r3, h3⟩ := pixels_spec (st := w) (w := w) (H := h) (y := h - 1) (body := derivYLastFl diff S src w)
    (φ := fun x _ => edgeDeriv S (diff (p x) (q x))) (i0 := 0) (n := w) (Nat.le_refl _) (by omega) (Nat.le_refl _)
    (Nat.zero_le _) (by
      intro x d g _ hx _
      unfold derivYLastFl
      have hi1 : (x : Int) + ((src.height : Int) - 1) * (w : Int) = ((x + (h - 1) * w : Nat) : Int) := by
        rw [e2]
        have : ((h - 1 : Nat) : Int) = (h : Int) - 1 := by omega
        push_cast
        rw [this]
      have hi2 : (x : Int) + ((src.height : Int) - 2) * (w : Int) = ((x + (h - 2) * w : Nat) : Int) := by
        rw [e2]
        have : ((h - 2 : Nat) : Int) = (h : Int) - 2 := by omega
        push_cast
        rw [this]
      rw [readI_nat hi1, readI_nat hi2, readAt_some (hp x hx), readAt_some (hq x hx)]
      simp only [Res.ok_bind]
      rw [writeI_nat hi1, Nat.add_comm]) h2'
  refine ⟨{ d with data := d3 }, ?_, ⟨by simp only; omega, by simp only [h3.len, dh, ds]⟩, dw, dh, ?_⟩
  · unfold derivYFl
    rw [ed]
    simp only [Res.ok_bind, dw, e2, ds, r1, r2, r3]
    rfl
  · intro x y hx hy
    have := h3.at' x y hx hy
    unfold GImage.pixel
    simp only [ds, this, Option.some.injEq]
    by_cases hl : y = h - 1
    · rw [if_pos ⟨hl, Nat.zero_le _, hx⟩, if_pos hl]
    · rw [if_neg (by omega), if_neg hl]
      by_cases h0 : y = 0
      · subst h0
        rw [if_neg (by omega), if_pos ⟨rfl, Nat.zero_le _, hx⟩, floatDeriv_first]
      · rw [if_pos (by omega), floatDeriv_inner (i := y) (by omega) (by omega)]

/-! ## Rounding -/

theorem log_double {q : Rat} (hq : 0 < q) : Int.log 2 (2 * q) = Int.log 2 q + 1 := by
  have h1 := Int.zpow_log_le_self (b := 2) (by norm_num) hq
  have h2 := Int.lt_zpow_succ_log_self (b := 2) (by norm_num) q
  push_cast at h1 h2
  have hq2 : 0 < 2 * q := by linarith
  have a : Int.log 2 q + 1 ≤ Int.log 2 (2 * q) := by
    rw [← Int.zpow_le_iff_le_log (b := 2) (by norm_num) hq2]
    push_cast
    rw [zpow_add₀ (by norm_num), zpow_one]
    linarith
  have b : Int.log 2 (2 * q) < Int.log 2 q + 1 + 1 := by
    rw [← Int.lt_zpow_iff_log_lt (b := 2) (by norm_num) hq2]
    push_cast
    rw [zpow_add₀ (by norm_num), zpow_one]
    linarith
  omega

/-- A multiple of the smallest positive number. -/
def OnGrid (q : Rat) : Prop := ∃ n : Int, q = n * 2 ^ (-149 : Int)

theorem onGrid_float {q : Rat} (h : IsFloatNum 24 (-149) q) : OnGrid q := by
  obtain ⟨m, e, _, he, rfl⟩ := h
  exact floatNum_on_grid ⟨m, e, he, rfl⟩

theorem OnGrid.sub {a b : Rat} (ha : OnGrid a) (hb : OnGrid b) : OnGrid (a - b) := by
  obtain ⟨m, rfl⟩ := ha
  obtain ⟨n, rfl⟩ := hb
  exact ⟨m - n, by push_cast; ring⟩

theorem f32_low {q : Rat} (hq : OnGrid q) (h : lastExp 24 (-149) q = -149) : f32 q = q := by
  have h1 := abs_lt_lastExp 24 (-149) q
  rw [h] at h1
  obtain ⟨n, rfl⟩ := hq
  apply fround_exact (by norm_num)
  refine ⟨n, -149, ?_, le_refl _, rfl⟩
  have hp := two_zpow_pos (-149)
  rw [abs_mul, abs_of_pos hp, zpow_add₀ (by norm_num), mul_comm ((2 : Rat) ^ (-149 : Int))] at h1
  have h2 := lt_of_mul_lt_mul_right h1 hp.le
  norm_num at h2 ⊢
  exact_mod_cast h2

theorem f32_f32 (q : Rat) : f32 (f32 q) = f32 q := fround_exact (by norm_num) (fround_isFloat (by norm_num) q)

/-- Doubling and rounding can be exchanged. -/
theorem f32_two_mul {q : Rat} (hq : OnGrid q) : f32 (2 * q) = 2 * f32 q := by
  by_cases h0 : q = 0
  · rw [h0, mul_zero, f32_zero, mul_zero]
  by_cases hl : lastExp 24 (-149) q = -149
  · have e := f32_double (g := fun _ => q) 0
    simp only [f32_low hq hl] at e
    rw [e, f32_low hq hl]
  · have hpos : 0 < |q| := abs_pos.mpr h0
    have e2 : |2 * q| = 2 * |q| := by rw [abs_mul, abs_of_pos (by norm_num : (0 : Rat) < 2)]
    have e : lastExp 24 (-149) (2 * q) = lastExp 24 (-149) q + 1 := by
      unfold lastExp at hl ⊢
      rw [e2, log_double hpos]
      omega
    unfold f32 fround
    rw [e, zpow_add₀ (by norm_num), zpow_one, mul_comm _ (2 : Rat), mul_div_mul_left _ _ (by norm_num)]
    ring

theorem f32_eq_zero {q : Rat} (hq : OnGrid q) : f32 q = 0 ↔ q = 0 := by
  constructor
  · intro h
    by_contra h0
    by_cases hl : lastExp 24 (-149) q = -149
    · exact h0 (by rw [← f32_low hq hl, h])
    · have h1 := emin_le_lastExp 24 (-149) q
      have h2 := le_abs_lastExp (p := 24) (emin := -149) h0 (by omega)
      have h3 := fround_err 24 (-149) q
      have h4 : fround 24 (-149) q = 0 := h
      rw [h4, zero_sub, abs_neg] at h3
      have h5 : (2 : Rat) ^ lastExp 24 (-149) q ≤ 2 ^ (lastExp 24 (-149) q + (24 : Nat) - 1) := zpow_le_zpow_two (by push_cast; omega)
      have := two_zpow_pos (lastExp 24 (-149) q)
      linarith
  · rintro rfl
    exact f32_zero

theorem byteDiff_eq (a b : Byte) : byteDiff a b = (a.toNat : Rat) - b.toNat := by
  have ha : a.toNat < 256 := a.toNat_lt
  have hb : b.toNat < 256 := b.toNat_lt
  unfold byteDiff
  rw [f32_int (by rw [abs_le]; omega)]
  push_cast
  rfl

theorem floatDeriv_byte {n : Nat} (hn : 2 ≤ n) {s : Nat → Byte} {i : Nat} (hi : i < n) :
    floatDeriv byteDiff 255 n s i = f32 (neighbourDiff n (fun k => ((s k).toNat : Rat)) i / 255) := by
  have e : ∀ a b : Byte, edgeDeriv 255 (byteDiff a b) = f32 (2 * ((a.toNat : Rat) - b.toNat) / 255) := by
    intro a b
    have ha : a.toNat < 256 := a.toNat_lt
    have hb : b.toNat < 256 := b.toNat_lt
    have := f32_int (n := 2 * ((a.toNat : Int) - b.toNat)) (by rw [abs_le]; omega)
    push_cast at this
    unfold edgeDeriv
    rw [byteDiff_eq, this]
  by_cases h0 : i = 0
  · rw [h0, floatDeriv_first, neighbourDiff_first n _ hn, e]
  by_cases h1 : i = n - 1
  · rw [h1, floatDeriv_last hn, neighbourDiff_last n _ hn, e]
  · rw [floatDeriv_inner (by omega) (by omega), neighbourDiff_inner n _ i (by omega) (by omega), byteDiff_eq]
    rfl

theorem floatDeriv_float {n : Nat} (hn : 2 ≤ n) {s : Nat → Rat} (hs : ∀ k < n, IsFloatNum 24 (-149) (s k)) {i : Nat} (hi : i < n) :
    floatDeriv floatDiff 1 n s i = f32 (neighbourDiff n s i) := by
  have e : ∀ a b : Rat, IsFloatNum 24 (-149) a → IsFloatNum 24 (-149) b → edgeDeriv 1 (floatDiff a b) = f32 (2 * (a - b)) := by
    intro a b ha hb
    have e1 := f32_double (g := fun _ => a - b) 0
    unfold edgeDeriv floatDiff
    rw [div_one, f32_f32, e1, f32_two_mul ((onGrid_float ha).sub (onGrid_float hb))]
  by_cases h0 : i = 0
  · rw [h0, floatDeriv_first, neighbourDiff_first n _ hn, e _ _ (hs 1 (by omega)) (hs 0 (by omega))]
  by_cases h1 : i = n - 1
  · rw [h1, floatDeriv_last hn, neighbourDiff_last n _ hn, e _ _ (hs _ (by omega)) (hs _ (by omega))]
  · rw [floatDeriv_inner (by omega) (by omega), neighbourDiff_inner n _ i (by omega) (by omega)]
    unfold innerDeriv floatDiff
    rw [div_one, f32_f32]

/-! ## The images -/

theorem GImage.Shows.congr' {img : GImage Rat} {g g' : Nat → Nat → Rat} (hs : img.Shows w h g)
    (he : ∀ x y, x < w → y < h → g x y = g' x y) : img.Shows w h g' :=
  ⟨hs.width_eq, hs.height_eq, fun x y hx hy => by rw [hs.pixel_eq x y hx hy, he x y hx hy]⟩

/-- C155. Every number of the horizontal derivative of an image of bytes is the exact one, rounded once. -/
theorem c155_deriv_x_uc {src : GImage Byte} {f : Nat → Nat → Byte} (hd : dest.Wf) (hw : src.Wf) (hsz : src.data.length ≤ 2147483647)
    (hs : src.Shows w h f) (h2 : 2 ≤ w) :
    ∃ d, derivXUc junk dest src = .ok d ∧ d.Wf ∧
      d.Shows w h (fun x y => f32 (neighbourDiff w (fun i => ((f i y).toNat : Rat)) x / 255)) := by
  obtain ⟨d, e, hf, hg⟩ := derivXFl_spec (diff := byteDiff) (S := 255) (junk := junk) hd hw hsz hs h2
  exact ⟨d, e, hf, hg.congr' fun x y hx _ => floatDeriv_byte h2 hx⟩

/-- C155. Likewise for images of numbers of type `float`, though three operations are rounded. -/
theorem c155_deriv_x_f32 {src : GImage Rat} {f : Nat → Nat → Rat} (hd : dest.Wf) (hw : src.Wf) (hsz : src.data.length ≤ 2147483647)
    (hs : src.Shows w h f) (h2 : 2 ≤ w) (hf : ∀ x < w, ∀ y < h, IsFloatNum 24 (-149) (f x y)) :
    ∃ d, derivXF32 junk dest src = .ok d ∧ d.Wf ∧ d.Shows w h (fun x y => f32 (neighbourDiff w (fun i => f i y) x)) := by
  obtain ⟨d, e, hd', hg⟩ := derivXFl_spec (diff := floatDiff) (S := 1) (junk := junk) hd hw hsz hs h2
  exact ⟨d, e, hd', hg.congr' fun x y hx hy => floatDeriv_float h2 (fun k hk => hf k hk y hy) hx⟩

theorem derivYFl_plain (hd : dest.Wf) (hw : src.Wf) (hsz : src.data.length ≤ 2147483647) (hs : src.Shows w h f) (h2 : 2 ≤ h)
    (hst : src.stride = w) :
    ∃ d, derivYFl diff S junk dest src = .ok d ∧ d.Wf ∧ d.Shows w h (fun x y => floatDeriv diff S h (fun i => f x i) y) := by
  obtain ⟨d, e, hwf, hsh⟩ := derivYFl_spec (diff := diff) (S := S) (junk := junk) hd hw hsz hs h2 (fun x => f x (h - 1))
    (fun x => f x (h - 2))
    (by intro x hx; rw [Nat.add_comm, ← hst]; exact hs.pixel_eq x (h - 1) hx (by omega))
    (by intro x hx; rw [Nat.add_comm, ← hst]; exact hs.pixel_eq x (h - 2) hx (by omega))
  refine ⟨d, e, hwf, hsh.congr' ?_⟩
  intro x y hx hy
  by_cases hl : y = h - 1
  · rw [if_pos hl, hl, floatDeriv_last h2]
  · rw [if_neg hl]

/-- C155. The vertical derivative of an image of bytes without padding. -/
theorem c155_deriv_y_uc_partial {src : GImage Byte} {f : Nat → Nat → Byte} (hd : dest.Wf) (hw : src.Wf)
    (hsz : src.data.length ≤ 2147483647) (hs : src.Shows w h f) (h2 : 2 ≤ h) (hst : src.stride = w) :
    ∃ d, derivYUc junk dest src = .ok d ∧ d.Wf ∧
      d.Shows w h (fun x y => f32 (neighbourDiff h (fun i => ((f x i).toNat : Rat)) y / 255)) := by
  obtain ⟨d, e, hf, hg⟩ := derivYFl_plain (diff := byteDiff) (S := 255) (junk := junk) hd hw hsz hs h2 hst
  exact ⟨d, e, hf, hg.congr' fun x y _ hy => floatDeriv_byte h2 hy⟩

/-- C155. The vertical derivative of an image of numbers of type `float` without padding. -/
theorem c155_deriv_y_f32_partial {src : GImage Rat} {f : Nat → Nat → Rat} (hd : dest.Wf) (hw : src.Wf)
    (hsz : src.data.length ≤ 2147483647) (hs : src.Shows w h f) (h2 : 2 ≤ h) (hst : src.stride = w)
    (hf : ∀ x < w, ∀ y < h, IsFloatNum 24 (-149) (f x y)) :
    ∃ d, derivYF32 junk dest src = .ok d ∧ d.Wf ∧ d.Shows w h (fun x y => f32 (neighbourDiff h (fun i => f x i) y)) := by
  obtain ⟨d, e, hd', hg⟩ := derivYFl_plain (diff := floatDiff) (S := 1) (junk := junk) hd hw hsz hs h2 hst
  exact ⟨d, e, hd', hg.congr' fun x y hx hy => floatDeriv_float h2 (fun k hk => hf x hx k hk) hy⟩

/-! ## What rounding does not lose -/

theorem neighbourDiff_grid {n : Nat} (hn : 2 ≤ n) {s : Nat → Rat} (hs : ∀ k < n, IsFloatNum 24 (-149) (s k)) {i : Nat} (hi : i < n) :
    OnGrid (neighbourDiff n s i) := by
  have d : ∀ a b, a < n → b < n → OnGrid (s a - s b) := fun a b ha hb => (onGrid_float (hs a ha)).sub (onGrid_float (hs b hb))
  have t : ∀ q, OnGrid q → OnGrid (2 * q) := by
    rintro q ⟨m, rfl⟩
    exact ⟨2 * m, by push_cast; ring⟩
  by_cases h0 : i = 0
  · rw [h0, neighbourDiff_first n _ hn]
    exact t _ (d _ _ (by omega) (by omega))
  by_cases h1 : i = n - 1
  · rw [h1, neighbourDiff_last n _ hn]
    exact t _ (d _ _ (by omega) (by omega))
  · rw [neighbourDiff_inner n _ i (by omega) (by omega)]
    exact d _ _ (by omega) (by omega)

/-- C155. The derivative is zero exactly where the neighbours are equal, and keeps its sign, however small the difference is. -/
theorem c155_sign {n : Nat} (hn : 2 ≤ n) {s : Nat → Rat} (hs : ∀ k < n, IsFloatNum 24 (-149) (s k)) {i : Nat} (hi : i < n) :
    (f32 (neighbourDiff n s i) = 0 ↔ neighbourDiff n s i = 0) ∧ (0 < f32 (neighbourDiff n s i) ↔ 0 < neighbourDiff n s i) := by
  have hz := f32_eq_zero (neighbourDiff_grid hn hs hi)
  refine ⟨hz, ?_⟩
  constructor
  · intro h
    by_contra hc
    have := f32_mono (not_lt.mp hc)
    rw [f32_zero] at this
    linarith
  · intro h
    exact lt_of_le_of_ne (f32_nonneg h.le) fun e => h.ne' (hz.mp e.symm)

/-- C155. The derivative of bytes is within a rounding error of the derivative of the converted image. -/
theorem c155_convert (a b : Byte) :
    |f32 (f32 ((a.toNat : Rat) / 255) - f32 ((b.toNat : Rat) / 255)) - f32 (((a.toNat : Rat) - b.toNat) / 255)| ≤ 1 / 4194304 := by
  have r : ∀ v : Byte, (0 : Rat) ≤ v.toNat / 255 ∧ (v.toNat : Rat) / 255 ≤ 1 := by
    intro v
    have hv : v.toNat ≤ 255 := by have := v.toNat_lt; omega
    have hv' : (v.toNat : Rat) ≤ 255 := by exact_mod_cast hv
    constructor
    · positivity
    · rw [div_le_one (by norm_num)]
      exact hv'
  have ea := f32_err_two (r a).1 (by linarith [(r a).2])
  have eb := f32_err_two (r b).1 (by linarith [(r b).2])
  have e1 : ∀ q : Rat, |q| < 2 → |f32 q - q| ≤ 1 / 16777216 := by
    intro q hq
    have := f32_err (q := q) (k := 1) (by norm_num) (by norm_num; exact hq)
    norm_num at this ⊢
    exact this
  rw [abs_le] at ea eb
  have ra := r a
  have rb := r b
  have hd : ((a.toNat : Rat) - b.toNat) / 255 = a.toNat / 255 - b.toNat / 255 := by ring
  have c1 := e1 (f32 ((a.toNat : Rat) / 255) - f32 ((b.toNat : Rat) / 255)) (by rw [abs_lt]; constructor <;> linarith)
  have c2 := e1 (((a.toNat : Rat) - b.toNat) / 255) (by rw [hd, abs_lt]; constructor <;> linarith)
  rw [hd] at c2 ⊢
  rw [abs_le] at c1 c2 ⊢
  constructor <;> linarith

/-- C155 fails: the two are not the same. -/
theorem c155_convert_false :
    derivXUc (fun _ => 0) ⟨0, 0, 0, []⟩ ⟨3, 1, 3, [1, 2, 3]⟩ ≠
      derivXF32 (fun _ => 0) ⟨0, 0, 0, []⟩ ⟨3, 1, 3, [f32 (1 / 255), f32 (2 / 255), f32 (3 / 255)]⟩ := by decide +kernel

/-- C155 fails: with padding the last row of the vertical derivative is wrong. -/
theorem c155_padded_false :
    derivYUc (fun _ => 0) ⟨0, 0, 0, []⟩ ⟨2, 2, 3, [7, 7, 0, 7, 7, 0]⟩ = .ok ⟨2, 2, 2, [0, 0, f32 (-14 / 255), 0]⟩ := by decide +kernel

/-! ## Examples -/

example : derivXUc (fun _ => 0) ⟨0, 0, 0, []⟩ ⟨3, 1, 4, [10, 30, 255, 9]⟩ =
    .ok ⟨3, 1, 3, [f32 (40 / 255), f32 (245 / 255), f32 (450 / 255)]⟩ := by decide +kernel

example : derivXF32 (fun _ => 0) ⟨0, 0, 0, []⟩ ⟨3, 1, 3, [16777216, 1 / 4, -1]⟩ = .ok ⟨3, 1, 3, [-33554432, -16777216, -5 / 2]⟩ := by
  decide +kernel

example : IsFloatNum 24 (-149) (1 / 4) := ⟨1, -2, by norm_num, by norm_num, by norm_num⟩

end Nx
