import Verif.Lemmas.ImageArith
import Mathlib.Tactic.Ring
import Mathlib.Tactic.Linarith
import Mathlib.Tactic.FieldSimp
import Mathlib.Algebra.Order.Field.Rat
import Mathlib.Algebra.Order.Field.Basic

/-!
# C75: derivatives of images, C76: arithmetic on images
-/

namespace Nx

variable {β : Type} {conv : β → Rat} {S : Rat} {junk : Nat → Rat} {dest : GImage Rat} {src : GImage β} {w h : Nat}
  {f : Nat → Nat → β}

/-! ## Derivatives -/

theorem neighbourDiff_first (n : Nat) (s : Nat → Rat) (hn : 2 ≤ n) : neighbourDiff n s 0 = 2 * (s 1 - s 0) := by
  have e : (((0 : Nat) : Int) + 1).toNat = 1 := rfl
  unfold neighbourDiff extrapolate
  rw [if_neg (by omega), if_pos (by omega), if_pos (by omega), e]
  ring

theorem neighbourDiff_last (n : Nat) (s : Nat → Rat) (hn : 2 ≤ n) :
    neighbourDiff n s (n - 1) = 2 * (s (n - 1) - s (n - 2)) := by
  have e : (((n - 1 : Nat) : Int) - 1).toNat = n - 2 := by omega
  unfold neighbourDiff extrapolate
  rw [if_neg (by omega), if_neg (by omega), if_neg (by omega), if_pos (by omega), e]
  ring

theorem neighbourDiff_inner (n : Nat) (s : Nat → Rat) (i : Nat) (h0 : 0 < i) (h1 : i + 1 < n) :
    neighbourDiff n s i = s (i + 1) - s (i - 1) := by
  have e : ((i : Int) - 1).toNat = i - 1 := by omega
  have e' : ((i : Int) + 1).toNat = i + 1 := by omega
  unfold neighbourDiff extrapolate
  rw [if_neg (by omega), if_pos (by omega), if_neg (by omega), if_pos (by omega), e, e']

theorem derivXRow_spec {st H : Nat} (hs : src.Shows w h f) (hw : 2 ≤ w) (hst : w ≤ st) {y : Nat} (hy : y < H) (hyh : y < h)
    {d : List Rat} {g : Nat → Nat → Rat} (hp : Pix st w H d g) :
    ∃ d', derivXRow conv S src st w y d = .ok d' ∧
      Pix st w H d' (fun x' y' => if y' = y then neighbourDiff w (fun i => conv (f i y)) x' / S else g x' y') := by
  obtain ⟨d1, e1, h1⟩ := hp.write hst (x := 0) (y := y) (by omega) hy (2 * (conv (f 1 y) - conv (f 0 y)) / S)
  obtain ⟨d2, e2, h2⟩ := pixels_spec (st := st) (w := w) (H := H) (y := y) (body := derivXBody conv S src st y)
    (φ := fun x _ => (conv (f (x + 1) y) - conv (f (x - 1) y)) / S) (i0 := 1) (n := w - 1) hst hy (by omega) (by omega) (by
      intro x d g hx0 hx _
      unfold derivXBody
      rw [hs.read (x := x + 1) (y := y) (by omega) hyh, hs.read (x := x - 1) (y := y) (by omega) hyh]
      rfl) h1
  obtain ⟨d3, e3, h3⟩ := h2.write hst (x := w - 1) (y := y) (by omega) hy (2 * (conv (f (w - 1) y) - conv (f (w - 2) y)) / S)
  refine ⟨d3, ?_, h3.congr ?_⟩
  · unfold derivXRow
    rw [hs.read (x := 1) (y := y) (by omega) hyh]
    have r0 := hs.read (x := 0) (y := y) (by omega) hyh
    rw [Nat.add_zero] at r0 e1
    rw [r0]
    simp only [Res.ok_bind]
    rw [e1]
    simp only [Res.ok_bind]
    rw [e2]
    simp only [Res.ok_bind]
    have ew := hs.width_eq
    rw [ew, readI_nat (k := y * src.stride + (w - 1)) (by push_cast; omega),
      readI_nat (k := y * src.stride + (w - 2)) (by push_cast; omega), hs.read (x := w - 1) (y := y) (by omega) hyh,
      hs.read (x := w - 2) (y := y) (by omega) hyh]
    simp only [Res.ok_bind]
    rw [writeI_nat (k := y * st + (w - 1)) (by push_cast; omega)]
    exact e3
  · intro x' y' hx' _
    by_cases hyy : y' = y
    · subst hyy
      rw [if_pos rfl]
      by_cases hl : x' = w - 1
      · rw [if_pos ⟨hl, rfl⟩, hl, neighbourDiff_last w _ hw]
      · rw [if_neg (by omega)]
        by_cases h0 : x' = 0
        · subst h0
          rw [if_neg (by omega), if_pos ⟨rfl, rfl⟩, neighbourDiff_first w _ hw]
        · rw [if_pos ⟨rfl, by omega⟩, neighbourDiff_inner w _ x' (by omega) (by omega)]
    · rw [if_neg hyy, if_neg (by omega), if_neg (by omega), if_neg (by omega)]

/-- C75. For images that are at least two pixels wide the horizontal derivative is everywhere the difference of the two
neighbours, where the row is extended along a straight line, divided by the scale. -/
theorem c75_deriv_x (hd : dest.Wf) (hw : src.Wf) (hsz : src.data.length ≤ 2147483647) (hs : src.Shows w h f) (h2 : 2 ≤ w) :
    ∃ d, derivX conv S junk dest src = .ok d ∧ d.Wf ∧
      d.Shows w h (fun x y => neighbourDiff w (fun i => conv (f i y)) x / S) := by
  have e1 := hs.width_eq
  have e2 := hs.height_eq
  have hprod : src.width * src.height ≤ 2147483647 := by
    have h1 : src.width * src.height ≤ src.stride * src.height := Nat.mul_le_mul_right _ hw.stride_ge
    rw [← hw.length_eq] at h1
    omega
  obtain ⟨d, ed, dw, dh, ds, dl⟩ := gResize_ok (junk := junk) (st := 0) hd hprod (Nat.zero_le _)
  rw [e1] at dw ds
  rw [e2] at dh
  have dl' : d.data.length = d.stride * h := by rw [dl, e1, e2, ds]
  obtain ⟨g, hg⟩ := Pix.exists (st := d.stride) (w := w) (H := h) dl' (by omega)
  obtain ⟨r, er, hP⟩ := rows_spec (n := h) (i0 := 0) (row := fun y d' => derivXRow conv S src d.stride w y d')
    (T := fun y _ x => neighbourDiff w (fun i => conv (f i y)) x / S) (Nat.zero_le _) (by
      intro y d' g' _ hy hp
      exact derivXRow_spec hs h2 (by omega) hy hy hp) hg
  refine ⟨{ d with data := r }, ?_, ⟨by simp only; omega, by simp only [hP.len, dh]⟩, dw, dh, ?_⟩
  · unfold derivX
    rw [ed]
    simp only [Res.ok_bind, dw, e2, er]
    rfl
  · intro x y hx hy
    have := hP.at' x y hx hy
    rw [if_pos ⟨Nat.zero_le _, hy⟩] at this
    exact this

/-- C75. An image that is one pixel wide, or empty rows, are read outside of their memory. -/
theorem c75_deriv_x_narrow (hd : dest.Wf) (hw : src.Wf) (hsz : src.data.length ≤ 2147483647) (h1 : src.width ≤ 1)
    (hh : 0 < src.height) : derivX conv S junk dest src = .ub := by
  have hprod : src.width * src.height ≤ 2147483647 := by
    have h1 : src.width * src.height ≤ src.stride * src.height := Nat.mul_le_mul_right _ hw.stride_ge
    rw [← hw.length_eq] at h1
    omega
  obtain ⟨d, ed, dw, dh, ds, dl⟩ := gResize_ok (junk := junk) (st := 0) hd hprod (Nat.zero_le _)
  unfold derivX
  rw [ed]
  simp only [Res.ok_bind]
  rw [forLoop_ub hh]
  · rfl
  have hR : ∀ i, readAt src.data i = .ub ∨ ∃ v, readAt src.data i = .ok v := by
    intro i
    unfold readAt
    cases src.data[i]? with
    | none => exact Or.inl rfl
    | some v => exact Or.inr ⟨v, rfl⟩
  unfold derivXRow
  rcases hR (0 * src.stride + 1) with e | ⟨a, e⟩
  · rw [e]
    rfl
  rw [e]
  simp only [Res.ok_bind]
  rcases hR (0 * src.stride) with e | ⟨b, e⟩
  · rw [e]
    rfl
  rw [e]
  simp only [Res.ok_bind]
  by_cases hz : 0 * d.stride < d.data.length
  · rw [writeAt_ok _ hz]
    simp only [Res.ok_bind]
    rw [forLoop, if_neg (by omega)]
    simp only [Res.ok_bind]
    have hlast : readI src.data (((0 : Nat) : Int) * src.stride + ((src.width : Int) - 2)) = .ub := readI_neg (by omega)
    rw [hlast]
    by_cases h0 : src.width = 0
    · rw [readI_neg (by omega)]
      rfl
    · rw [readI_nat (k := 0) (by omega)]
      rcases hR 0 with e | ⟨c, e⟩ <;> rw [e] <;> rfl
  · have : ∀ v, writeAt d.data (0 * d.stride) v = .ub := by
      intro v
      unfold writeAt
      rw [if_neg hz]
    rw [this]
    rfl

/-- What the vertical derivative writes: the last row depends on the memory of the source, read with the stride of the
destination. -/
theorem derivY_spec (hd : dest.Wf) (hw : src.Wf) (hsz : src.data.length ≤ 2147483647) (hs : src.Shows w h f) (h2 : 2 ≤ h)
    (p q : Nat → β) (hp : ∀ x < w, src.data[x + (h - 1) * w]? = some (p x)) (hq : ∀ x < w, src.data[x + (h - 2) * w]? = some (q x)) :
    ∃ d, derivY conv S junk dest src = .ok d ∧ d.Wf ∧
      d.Shows w h (fun x y => if y = h - 1 then 2 * (conv (p x) - conv (q x)) / S
        else neighbourDiff h (fun i => conv (f x i)) y / S) := by
  have e1 := hs.width_eq
  have e2 := hs.height_eq
  have hprod : src.width * src.height ≤ 2147483647 := by
    have h1 : src.width * src.height ≤ src.stride * src.height := Nat.mul_le_mul_right _ hw.stride_ge
    rw [← hw.length_eq] at h1
    omega
  obtain ⟨d, ed, dw, dh, ds, dl⟩ := gResize_ok (junk := junk) (st := 0) hd hprod (Nat.zero_le _)
  rw [e1] at dw ds
  rw [e2] at dh
  have dl' : (d.data.map (fun _ => (0 : Rat))).length = w * h := by rw [List.length_map, dl, e1, e2]
  obtain ⟨g, hg⟩ := Pix.exists (st := w) (w := w) (H := h) dl' (Nat.le_refl _)
  obtain ⟨d1, r1, h1⟩ := pixels_spec (st := w) (w := w) (H := h) (y := 0) (body := derivYFirst conv S src)
    (φ := fun x _ => 2 * (conv (f x 1) - conv (f x 0)) / S) (i0 := 0) (n := w) (Nat.le_refl _) (by omega) (Nat.le_refl _)
    (Nat.zero_le _) (by
      intro x d g _ hx _
      have a := hs.read (x := x) (y := 1) hx (by omega)
      have b := hs.read (x := x) (y := 0) hx (by omega)
      rw [Nat.one_mul, Nat.add_comm] at a
      rw [Nat.zero_mul, Nat.zero_add] at b
      unfold derivYFirst
      rw [a, b]
      simp only [Res.ok_bind, Nat.zero_mul, Nat.zero_add]) hg
  obtain ⟨d2, r2, h2'⟩ := rows_spec (st := w) (w := w) (H := h) (n := h - 1) (i0 := 1)
    (row := fun y d => forLoop w (derivYBody conv S src w y) 0 d)
    (T := fun y _ x => (conv (f x (y + 1)) - conv (f x (y - 1))) / S) (by omega) (by
      intro y d g hy0 hy hP
      obtain ⟨d', e, hP'⟩ := pixels_spec (st := w) (w := w) (H := h) (y := y) (body := derivYBody conv S src w y)
        (φ := fun x _ => (conv (f x (y + 1)) - conv (f x (y - 1))) / S) (i0 := 0) (n := w) (Nat.le_refl _) (by omega)
        (Nat.le_refl _) (Nat.zero_le _) (by
          intro x d g _ hx _
          unfold derivYBody
          rw [hs.read (x := x) (y := y + 1) hx (by omega), hs.read (x := x) (y := y - 1) hx (by omega)]
          rfl) hP
      refine ⟨d', e, hP'.congr ?_⟩
      intro x' y' hx' _
      by_cases hc : y' = y
      · rw [if_pos ⟨hc, Nat.zero_le _, hx'⟩, if_pos hc]
      · rw [if_neg (by omega), if_neg hc]) h1
  obtain ⟨d3, r3, h3⟩ := pixels_spec (st := w) (w := w) (H := h) (y := h - 1) (body := derivYLast conv S src w)
    (φ := fun x _ => 2 * (conv (p x) - conv (q x)) / S) (i0 := 0) (n := w) (Nat.le_refl _) (by omega) (Nat.le_refl _)
    (Nat.zero_le _) (by
      intro x d g _ hx _
      unfold derivYLast
      have hi1 : (x : Int) + ((src.height : Int) - 1) * (w : Int) = ((x + (h - 1) * w : Nat) : Int) := by
        rw [e2]
        have : ((h - 1 : Nat) : Int) = (h : Int) - 1 := by omega
        push_cast
        rw [this]
      have hi2 : (x : Int) + ((src.height : Int) - 2) * (w : Int) = ((x + (h - 2) * w : Nat) : Int) := by
        rw [e2]
        have : ((h - 2 : Nat) : Int) = (h : Int) - 2 := by omega
        push_cast
        rw [this]
      rw [readI_nat hi1, readI_nat hi2, readAt_some (hp x hx), readAt_some (hq x hx)]
      simp only [Res.ok_bind]
      rw [writeI_nat hi1, Nat.add_comm]) h2'
  refine ⟨{ d with data := d3 }, ?_, ⟨by simp only; omega, by simp only [h3.len, dh, ds]⟩, dw, dh, ?_⟩
  · unfold derivY
    rw [ed]
    simp only [Res.ok_bind, dw, e2, ds, r1, r2, r3]
    rfl
  · intro x y hx hy
    have := h3.at' x y hx hy
    unfold GImage.pixel
    simp only [ds, this, Option.some.injEq]
    by_cases hl : y = h - 1
    · rw [if_pos ⟨hl, Nat.zero_le _, hx⟩, if_pos hl]
    · rw [if_neg (by omega), if_neg hl]
      by_cases h0 : y = 0
      · subst h0
        rw [if_neg (by omega), if_pos ⟨rfl, Nat.zero_le _, hx⟩, neighbourDiff_first h _ h2]
      · rw [if_pos (by omega), neighbourDiff_inner h _ y (by omega) (by omega)]

/-- C75. For images without padding that are at least two pixels high the vertical derivative is everywhere the difference of the
two neighbours. -/
theorem c75_deriv_y (hd : dest.Wf) (hw : src.Wf) (hsz : src.data.length ≤ 2147483647) (hs : src.Shows w h f) (h2 : 2 ≤ h)
    (hst : src.stride = w) :
    ∃ d, derivY conv S junk dest src = .ok d ∧ d.Wf ∧
      d.Shows w h (fun x y => neighbourDiff h (fun i => conv (f x i)) y / S) := by
  obtain ⟨d, e, hwf, hsh⟩ := derivY_spec (conv := conv) (S := S) (junk := junk) hd hw hsz hs h2 (fun x => f x (h - 1))
    (fun x => f x (h - 2))
    (by intro x hx; rw [Nat.add_comm, ← hst]; exact hs.pixel_eq x (h - 1) hx (by omega))
    (by intro x hx; rw [Nat.add_comm, ← hst]; exact hs.pixel_eq x (h - 2) hx (by omega))
  refine ⟨d, e, hwf, hsh.width_eq, hsh.height_eq, ?_⟩
  intro x y hx hy
  rw [hsh.pixel_eq x y hx hy]
  by_cases hl : y = h - 1
  · rw [if_pos hl, hl, neighbourDiff_last h _ h2]
  · rw [if_neg hl]

/-- C75. With padding, all rows but the last are right. -/
theorem c75_deriv_y_partial (hd : dest.Wf) (hw : src.Wf) (hsz : src.data.length ≤ 2147483647) (hs : src.Shows w h f) (h2 : 2 ≤ h) :
    ∃ d g, derivY conv S junk dest src = .ok d ∧ d.Wf ∧ d.Shows w h g ∧
      ∀ x y, x < w → y + 1 < h → g x y = neighbourDiff h (fun i => conv (f x i)) y / S := by
  have hlt : ∀ x k, x < w → k < h → x + k * w < src.data.length := by
    intro x k hx hk
    rw [hw.length_eq, hs.height_eq]
    have a : w * h ≤ src.stride * h := Nat.mul_le_mul_right _ (by rw [← hs.width_eq]; exact hw.stride_ge)
    have b := pixIdx_lt (st := w) (H := h) hx hk
    omega
  let v : Nat → Nat → β := fun k x => if hx : x < w ∧ k < h then src.data[x + k * w]'(hlt x k hx.1 hx.2) else f x k
  have hv : ∀ k x, x < w → k < h → src.data[x + k * w]? = some (v k x) := by
    intro k x hx hk
    simp only [v]
    rw [dif_pos ⟨hx, hk⟩, List.getElem?_eq_getElem (hlt x k hx hk)]
  obtain ⟨d, e, hwf, hsh⟩ := derivY_spec (conv := conv) (S := S) (junk := junk) hd hw hsz hs h2 (v (h - 1)) (v (h - 2))
    (fun x hx => hv _ x hx (by omega)) (fun x hx => hv _ x hx (by omega))
  refine ⟨d, _, e, hwf, hsh, ?_⟩
  intro x y _ hy
  rw [if_neg (by omega)]

/-- C75. With padding the last row is wrong: the image has the rows (1, 2) and (3, 4), the derivative in the last row is not
4 but the difference of other positions of the memory. -/
theorem c75_deriv_y_padded :
    derivY id 1 (fun _ => 0) ⟨0, 0, 0, []⟩ (⟨2, 2, 3, [1, 2, 0, 3, 4, 0]⟩ : GImage Rat) =
        .ok ⟨2, 2, 2, [4, 4, -2, 2]⟩ ∧
      neighbourDiff 2 (fun i => [1, 3].getD i 0) 1 = 4 := by decide +kernel

/-- C75. An image that is one pixel high is read outside of its memory. -/
theorem c75_deriv_y_low (hd : dest.Wf) (hw : src.Wf) (hsz : src.data.length ≤ 2147483647) (h1 : src.height = 1)
    (hw0 : 0 < src.width) : derivY conv S junk dest src = .ub := by
  have hprod : src.width * src.height ≤ 2147483647 := by
    have h1 : src.width * src.height ≤ src.stride * src.height := Nat.mul_le_mul_right _ hw.stride_ge
    rw [← hw.length_eq] at h1
    omega
  obtain ⟨d, ed, dw, dh, ds, dl⟩ := gResize_ok (junk := junk) (st := 0) hd hprod (Nat.zero_le _)
  have : derivYFirst conv S src 0 (d.data.map (fun _ => 0)) = .ub := by
    unfold derivYFirst
    have hr : readAt src.data (0 + src.stride) = .ub := by
      unfold readAt
      rw [List.getElem?_eq_none (by rw [hw.length_eq, h1]; omega)]
    rw [hr]
    rfl
  unfold derivY
  rw [ed]
  simp only [Res.ok_bind]
  rw [forLoop_ub (by omega) this]
  rfl

/-- The derivative of a straight line is twice its slope, also at the ends. -/
theorem c75_slope (n : Nat) (hn : 2 ≤ n) (a b : Rat) (i : Nat) (hi : i < n) :
    neighbourDiff n (fun k => a + b * k) i = 2 * b := by
  by_cases h0 : i = 0
  · subst h0
    rw [neighbourDiff_first n _ hn]
    push_cast
    ring
  · by_cases hl : i = n - 1
    · subst hl
      rw [neighbourDiff_last n _ hn]
      have e1 : ((n - 1 : Nat) : Rat) = ((n - 2 : Nat) : Rat) + 1 := by
        have : n - 1 = n - 2 + 1 := by omega
        rw [this]
        push_cast
        rfl
      simp only [e1]
      ring
    · rw [neighbourDiff_inner n _ i (by omega) (by omega)]
      have e1 : (i : Rat) = ((i - 1 : Nat) : Rat) + 1 := by
        have : i = i - 1 + 1 := by omega
        conv_lhs => rw [this]
        push_cast
        rfl
      push_cast
      rw [e1]
      ring

example : derivX (fun b : Byte => (b.toNat : Rat)) 255 (fun _ => 7) ⟨0, 0, 0, []⟩ ⟨3, 1, 4, [0, 255, 51, 9]⟩ =
    .ok ⟨3, 1, 3, [2, 1 / 5, -8 / 5]⟩ := by decide +kernel

/-! ## Arithmetic -/

/-- C76. The difference of two images is that of their pixels where both have one. -/
theorem c76_subtract {img0 img1 : GImage β} {w0 h0 w1 h1 : Nat} {f0 f1 : Nat → Nat → β} (hd : dest.Wf)
    (hw0 : img0.Wf) (hsz : img0.data.length ≤ 2147483647) (hs0 : img0.Shows w0 h0 f0) (hs1 : img1.Shows w1 h1 f1) :
    ∃ d, gSubtract conv junk dest img0 img1 = .ok d ∧ d.Wf ∧
      d.Shows (min w0 w1) (min h0 h1) (fun x y => conv (f0 x y) - conv (f1 x y)) := by
  have e1 := hs0.width_eq
  have e2 := hs0.height_eq
  have e3 := hs1.width_eq
  have e4 := hs1.height_eq
  have hprod : min w0 w1 * min h0 h1 ≤ 2147483647 := by
    have h1 : min w0 w1 * min h0 h1 ≤ img0.stride * img0.height :=
      Nat.mul_le_mul (by have := hw0.stride_ge; omega) (by omega)
    rw [← hw0.length_eq] at h1
    omega
  obtain ⟨d, ed, dw, dh, ds, dl⟩ := gResize_ok (junk := junk) (st := 0) hd hprod (Nat.zero_le _)
  have dl' : d.data.length = d.stride * min h0 h1 := by rw [dl, ds]
  obtain ⟨r, er, hF⟩ := fill_spec (st := d.stride) (H := min h0 h1) (w := min w0 w1)
    (f := fun x y => conv (f0 x y) - conv (f1 x y)) (d0 := d.data)
    (body := fun y x d' => do
      let a ← readAt img0.data (y * img0.stride + x)
      let b ← readAt img1.data (y * img1.stride + x)
      writeAt d' (y * d.stride + x) (conv a - conv b)) (by omega) dl' (by
      intro y x d' hy hx hd'
      rw [hs0.read (x := x) (y := y) (by omega) (by omega), hs1.read (x := x) (y := y) (by omega) (by omega)]
      simp only [Res.ok_bind]
      exact writeAt_ok _ (by rw [hd']; exact pixIdx_lt (by omega) hy))
  refine ⟨{ d with data := r }, ?_, ⟨by simp only; omega, by rw [hF.1, dh]⟩, dw, dh, ?_⟩
  · unfold gSubtract
    simp only [e1, e2, e3, e4, ed, Res.ok_bind]
    rw [er]
    rfl
  · intro x y hx hy
    exact hF.2 x y hx (Or.inl hy)

/-- C76. For `float` samples every sample of every channel is scaled and shifted. -/
theorem c76_axpy {img : GImage Rat} {nc w h : Nat} {f : Nat → Nat → Rat} (a b : Rat) (hw : (img.flat nc).Wf)
    (hs : (img.flat nc).Shows w h f) :
    ∃ d, axpyF32 nc a b img = .ok d ∧ (d.flat nc).Wf ∧ (d.flat nc).Shows w h (fun x y => a * f x y + b) ∧
      d.width = img.width ∧ d.height = img.height ∧ d.stride = img.stride := by
  obtain ⟨d', e, hP⟩ := sampleLoop_write (φ := fun v => a * v + b)
    (body := fun i d => do
      let v ← readAt d i
      writeAt d i (a * v + b)) hw hs (by
      intro i d v x y _ _ _ hv _
      rw [readAt_some hv]
      rfl)
  refine ⟨{ img with data := d' }, ?_, ⟨hw.stride_ge, ?_⟩, ⟨hs.width_eq, hs.height_eq, hP.at'⟩, rfl, rfl, rfl⟩
  · unfold axpyF32
    rw [e]
    rfl
  · have e2 : img.height = h := hs.height_eq
    show d'.length = img.stride * img.height
    rw [hP.len, e2]

/-- C76. For 8-bit samples the result is truncated and limited to 0 to 255, as long as it is in the range of `int`. -/
theorem c76_axpy_uc {img : GImage Byte} {nc w h : Nat} {f : Nat → Nat → Byte} (a b : Rat) (hw : (img.flat nc).Wf)
    (hs : (img.flat nc).Shows w h f) (hr : ∀ x y, x < w → y < h → InI32 (ratTrunc (a * (f x y).toNat + b))) :
    ∃ d g, axpyUc nc a b img = .ok d ∧ (d.flat nc).Wf ∧ (d.flat nc).Shows w h g ∧
      ∀ x y, x < w → y < h → ((g x y).toNat : Int) = max 0 (min 255 (ratTrunc (a * (f x y).toNat + b))) := by
  let φ : Byte → Byte := fun v =>
    let p := ratTrunc (a * v.toNat + b)
    UInt8.ofNat (if p < 0 then 0 else if p > 255 then 255 else p).toNat
  obtain ⟨d', e, hP⟩ := sampleLoop_write (φ := φ)
    (body := fun i d => do
      let v ← readAt d i
      let b ← axpyByte a b v
      writeAt d i b) hw hs (by
      intro i d v x y hx hy _ hv hvf
      rw [readAt_some hv]
      simp only [Res.ok_bind]
      unfold axpyByte
      subst hvf
      simp only [if_pos (hr x y hx hy), Res.ok_bind]
      rfl)
  refine ⟨{ img with data := d' }, _, ?_, ⟨hw.stride_ge, ?_⟩, ⟨hs.width_eq, hs.height_eq, hP.at'⟩, ?_⟩
  · unfold axpyUc
    rw [e]
    rfl
  · have e2 : img.height = h := hs.height_eq
    show d'.length = img.stride * img.height
    rw [hP.len, e2]
  · intro x y _ _
    simp only [φ]
    generalize ratTrunc (a * (f x y).toNat + b) = p
    rw [UInt8.toNat_ofNat']
    by_cases h0 : p < 0
    · rw [if_pos h0]
      simp
      omega
    · rw [if_neg h0]
      by_cases h1 : p > 255
      · rw [if_pos h1]
        simp
        omega
      · rw [if_neg h1]
        omega

/-! ## Normalisation -/

theorem gNormalize_spec {img : GImage Rat} {nc w h : Nat} {f : Nat → Nat → Rat} (sym : Bool) (hw : (img.flat nc).Wf)
    (hs : (img.flat nc).Shows w h f) (m : Rat × Rat) (hm : (scan w h f).foldl minMaxStep (fltMax, -fltMax) = m) :
    ∃ d, gNormalize nc sym img = .ok d ∧ (d.flat nc).Wf ∧
      (d.flat nc).Shows w h (fun x y => clampUnit ((normCoeffs sym m.1 m.2).1 * f x y + (normCoeffs sym m.1 m.2).2)) := by
  have hf := sampleLoop_fold minMaxStep hs (fltMax, -fltMax)
  rw [hm] at hf
  obtain ⟨d, e, hw', hs', _, _, _⟩ := c76_axpy (normCoeffs sym m.1 m.2).1 (normCoeffs sym m.1 m.2).2 hw hs
  obtain ⟨d', e', hP⟩ := sampleLoop_write (φ := clampUnit)
    (body := fun i d => do
      let v ← readAt d i
      writeAt d i (clampUnit v)) hw' hs' (by
      intro i d v x y _ _ _ hv _
      rw [readAt_some hv]
      rfl)
  refine ⟨{ d with data := d' }, ?_, ⟨hw'.stride_ge, ?_⟩, ⟨hs'.width_eq, hs'.height_eq, hP.at'⟩⟩
  · unfold gNormalize
    rw [hf]
    simp only [Res.ok_bind]
    rw [e]
    simp only [Res.ok_bind]
    rw [e']
    rfl
  · have e2 : d.height = h := hs'.height_eq
    show d'.length = d.stride * d.height
    rw [hP.len, e2]

/-- The least value is found for every list. -/
theorem minMax_min (l : List Rat) (m : Rat × Rat) : (l.foldl minMaxStep m).1 = l.foldl min m.1 := by
  induction l generalizing m with
  | nil => rfl
  | cons v l ih =>
    rw [List.foldl_cons, List.foldl_cons, ih]
    congr 1
    unfold minMaxStep
    by_cases h1 : v < m.1
    · rw [if_pos h1]
      exact (min_eq_right h1.le).symm
    · rw [if_neg h1, min_eq_left (not_lt.mp h1)]
      split <;> rfl

theorem minMax_le (l : List Rat) (m : Rat × Rat) (b : Rat) (hm : m.2 ≤ b) (hl : ∀ v ∈ l, v ≤ b) :
    (l.foldl minMaxStep m).2 ≤ b := by
  induction l generalizing m with
  | nil => exact hm
  | cons v l ih =>
    apply ih _ _ (fun v hv => hl v (by simp [hv]))
    have := hl v (by simp)
    unfold minMaxStep
    split
    · exact hm
    · split
      · exact this
      · exact hm

theorem minMax_ge (l : List Rat) (m : Rat × Rat) : m.2 ≤ (l.foldl minMaxStep m).2 := by
  induction l generalizing m with
  | nil => exact le_refl _
  | cons v l ih =>
    refine le_trans ?_ (ih _)
    unfold minMaxStep
    split
    · exact le_refl _
    · split
      · rename_i h
        exact le_of_lt h
      · exact le_refl _

/-- A value that is not below the least one so far is counted for the greatest. -/
theorem minMax_mem (l : List Rat) (m : Rat × Rat) (v : Rat) (hv : v ∈ l) (h : m.1 ≤ v) : v ≤ (l.foldl minMaxStep m).2 := by
  induction l generalizing m with
  | nil => cases hv
  | cons u l ih =>
    rw [List.foldl_cons]
    rcases List.mem_cons.mp hv with e | hm
    · subst e
      refine le_trans ?_ (minMax_ge l _)
      unfold minMaxStep
      rw [if_neg (not_lt.mpr h)]
      split
      · exact le_refl _
      · rename_i h2
        exact not_lt.mp h2
    · apply ih _ hm
      unfold minMaxStep
      split
      · rename_i h1
        exact le_trans h1.le h
      · split <;> exact h

/-- The least and the greatest sample are found if the greatest one is not the first one only. -/
theorem minMax_found (l : List Rat) (lo hi first : Rat) (rest : List Rat) (hscan : l = first :: rest)
    (hlo : lo ∈ l) (hlo' : ∀ v ∈ l, lo ≤ v) (hhi : hi ∈ rest) (hhi' : ∀ v ∈ l, v ≤ hi)
    (hr : ∀ v ∈ l, -fltMax < v ∧ v < fltMax) : l.foldl minMaxStep (fltMax, -fltMax) = (lo, hi) := by
  have hmin : (l.foldl minMaxStep (fltMax, -fltMax)).1 = lo := by
    rw [minMax_min]
    apply le_antisymm
    · have : ∀ (l : List Rat) (b v : Rat), v ∈ l → l.foldl min b ≤ v := by
        intro l
        induction l with
        | nil => intro b v hv; cases hv
        | cons u l ih =>
          intro b v hv
          have hle : ∀ (l : List Rat) (b : Rat), l.foldl min b ≤ b := by
            intro l
            induction l with
            | nil => intro b; exact le_refl _
            | cons u l ih => intro b; exact le_trans (ih _) (min_le_left _ _)
          rcases List.mem_cons.mp hv with e | e
          · subst e
            exact le_trans (hle l _) (min_le_right _ _)
          · exact ih _ v e
      exact this _ _ lo hlo
    · have : ∀ (l : List Rat) (b : Rat), lo ≤ b → (∀ v ∈ l, lo ≤ v) → lo ≤ l.foldl min b := by
        intro l
        induction l with
        | nil => intro b hb _; exact hb
        | cons u l ih =>
          intro b hb hl
          exact ih _ (le_min hb (hl u (by simp))) (fun v hv => hl v (by simp [hv]))
      exact this _ _ (hr lo hlo).2.le hlo'
  have hfirst : first ∈ l := by rw [hscan]; simp
  have hmax : (l.foldl minMaxStep (fltMax, -fltMax)).2 = hi := by
    apply le_antisymm
    · exact minMax_le _ _ _ (le_trans (hr first hfirst).1.le (hhi' first hfirst)) hhi'
    · rw [hscan, List.foldl_cons]
      apply minMax_mem rest _ hi hhi
      unfold minMaxStep
      rw [if_pos (hr first hfirst).2]
      exact hhi' first hfirst
  exact Prod.ext hmin hmax

/-- C76. If the greatest sample is not the first one only, normalisation takes the least sample to zero, the greatest one to one,
and all others between them in proportion. -/
theorem c76_normalize_partial {img : GImage Rat} {nc w h : Nat} {f : Nat → Nat → Rat} (hw : (img.flat nc).Wf)
    (hs : (img.flat nc).Shows w h f) (lo hi first : Rat) (rest : List Rat) (hscan : scan w h f = first :: rest)
    (hlo : lo ∈ scan w h f) (hlo' : ∀ v ∈ scan w h f, lo ≤ v) (hhi : hi ∈ rest) (hhi' : ∀ v ∈ scan w h f, v ≤ hi)
    (hlt : lo < hi) (hr : ∀ v ∈ scan w h f, -fltMax < v ∧ v < fltMax) :
    ∃ d, gNormalize nc false img = .ok d ∧ (d.flat nc).Wf ∧ (d.flat nc).Shows w h (fun x y => (f x y - lo) / (hi - lo)) := by
  obtain ⟨d, e, hw', hs'⟩ := gNormalize_spec false hw hs (lo, hi) (minMax_found _ lo hi first rest hscan hlo hlo' hhi hhi' hr)
  refine ⟨d, e, hw', hs'.width_eq, hs'.height_eq, ?_⟩
  intro x y hx hy
  rw [hs'.pixel_eq x y hx hy]
  have hmem : f x y ∈ scan w h f := by
    unfold scan
    rw [List.mem_flatMap]
    exact ⟨y, by simpa using hy, by rw [List.mem_map]; exact ⟨x, by simpa using hx, rfl⟩⟩
  have h1 := hlo' _ hmem
  have h2 := hhi' _ hmem
  have hne : hi ≠ lo := ne_of_gt hlt
  have hpos : 0 < hi - lo := sub_pos.mpr hlt
  have hval : (normCoeffs false lo hi).1 * f x y + (normCoeffs false lo hi).2 = (f x y - lo) / (hi - lo) := by
    unfold normCoeffs
    rw [if_neg hne]
    simp only [Bool.false_eq_true, if_false]
    field_simp
    ring
  simp only [hval]
  unfold clampUnit
  rw [if_neg (not_lt.mpr (div_nonneg (by linarith) hpos.le)), if_neg (not_lt.mpr (by rw [div_le_one hpos]; linarith))]

theorem minMax_decreasing (l : List Rat) (m : Rat × Rat) (hm : ∀ v ∈ l, v < m.1) (hd : l.Pairwise (fun a b => b < a)) :
    (l.foldl minMaxStep m).2 = m.2 := by
  induction l generalizing m with
  | nil => rfl
  | cons v l ih =>
    rw [List.foldl_cons]
    have hv := hm v (by simp)
    have : minMaxStep m v = (v, m.2) := by
      unfold minMaxStep
      rw [if_pos hv]
    rw [this]
    exact ih _ (fun u hu => (List.pairwise_cons.mp hd).1 u hu) (List.pairwise_cons.mp hd).2

/-- C76 fails: an image whose samples decrease in the order of the rows becomes black. -/
theorem c76_normalize_decreasing {img : GImage Rat} {nc w h : Nat} {f : Nat → Nat → Rat} (hw : (img.flat nc).Wf)
    (hs : (img.flat nc).Shows w h f) (hd : (scan w h f).Pairwise (fun a b => b < a))
    (hr : ∀ v ∈ scan w h f, -fltMax < v ∧ v < fltMax) :
    ∃ d, gNormalize nc false img = .ok d ∧ (d.flat nc).Shows w h (fun _ _ => 0) := by
  obtain ⟨m, hm⟩ : ∃ m, (scan w h f).foldl minMaxStep (fltMax, -fltMax) = m := ⟨_, rfl⟩
  obtain ⟨d, e, _, hs'⟩ := gNormalize_spec false hw hs m hm
  refine ⟨d, e, hs'.width_eq, hs'.height_eq, ?_⟩
  intro x y hx hy
  rw [hs'.pixel_eq x y hx hy]
  have hmem : f x y ∈ scan w h f := by
    unfold scan
    rw [List.mem_flatMap]
    exact ⟨y, by simpa using hy, by rw [List.mem_map]; exact ⟨x, by simpa using hx, rfl⟩⟩
  have h2 : m.2 = -fltMax := by
    rw [← hm]
    exact minMax_decreasing _ _ (fun v hv => (hr v hv).2) hd
  have hfold : m.1 = (scan w h f).foldl min fltMax := by rw [← hm, minMax_min]
  have hge : ∀ (l : List Rat) (b : Rat), -fltMax < b → (∀ v ∈ l, -fltMax < v) → -fltMax < l.foldl min b := by
    intro l
    induction l with
    | nil => intro b hb _; exact hb
    | cons u l ih =>
      intro b hb hl
      exact ih _ (lt_min hb (hl u (by simp))) (fun v hv => hl v (by simp [hv]))
  have hle : ∀ (l : List Rat) (b v : Rat), v ∈ l ∨ v = b → l.foldl min b ≤ v := by
    intro l
    induction l with
    | nil => intro b v hv; rcases hv with hv | hv; cases hv; exact le_of_eq hv.symm
    | cons u l ih =>
      intro b v hv
      have a1 := ih (min b u) (min b u) (Or.inr rfl)
      rcases hv with hv | hv
      · rcases List.mem_cons.mp hv with e | e
        · subst e
          exact le_trans a1 (min_le_right _ _)
        · exact ih _ v (Or.inl e)
      · subst hv
        exact le_trans a1 (min_le_left _ _)
  have h1 : -fltMax < m.1 := by
    rw [hfold]
    exact hge _ _ (by unfold fltMax; norm_num) (fun v hv => (hr v hv).1)
  have h3 : m.1 ≤ f x y := by
    rw [hfold]
    exact hle _ _ _ (Or.inl hmem)
  have hne : m.2 ≠ m.1 := by rw [h2]; exact ne_of_lt h1
  have hval : (normCoeffs false m.1 m.2).1 * f x y + (normCoeffs false m.1 m.2).2 = (f x y - m.1) / (m.2 - m.1) := by
    have : m.2 - m.1 ≠ 0 := sub_ne_zero.mpr hne
    unfold normCoeffs
    rw [if_neg hne]
    simp only [Bool.false_eq_true, if_false]
    field_simp
    ring
  rw [hval]
  have hneg : (f x y - m.1) / (m.2 - m.1) ≤ 0 := div_nonpos_of_nonneg_of_nonpos (by linarith) (by rw [h2]; linarith)
  unfold clampUnit
  split
  · rfl
  · rename_i hn
    have : (f x y - m.1) / (m.2 - m.1) = 0 := le_antisymm hneg (not_lt.mp hn)
    rw [this]
    simp

/-- Two samples in decreasing order: the result should be (1, 0). -/
theorem c76_normalize_wrong : gNormalize 1 false ⟨2, 1, 2, [1, 0]⟩ = .ok ⟨2, 1, 2, [0, 0]⟩ := by decide +kernel

example : gNormalize 1 false ⟨3, 1, 3, [1, 0, 2]⟩ = .ok ⟨3, 1, 3, [1 / 2, 0, 1]⟩ := by decide +kernel

/-- The hypotheses of `c76_normalize_partial` can be met. -/
example : scan 3 1 (fun x _ => [1, 0, 2].getD x (0 : Rat)) = 1 :: [0, 2] ∧ (2 : Rat) ∈ [0, 2] ∧ (0 : Rat) < 2 := by decide +kernel

/-- C76. The symmetric normalisation takes zero to one half and scales by the greatest absolute value, which goes to zero or one. -/
theorem c76_normalize_symmetric_partial {img : GImage Rat} {nc w h : Nat} {f : Nat → Nat → Rat} (hw : (img.flat nc).Wf)
    (hs : (img.flat nc).Shows w h f) (lo hi first : Rat) (rest : List Rat) (hscan : scan w h f = first :: rest)
    (hlo : lo ∈ scan w h f) (hlo' : ∀ v ∈ scan w h f, lo ≤ v) (hhi : hi ∈ rest) (hhi' : ∀ v ∈ scan w h f, v ≤ hi)
    (hlt : lo < hi) (hr : ∀ v ∈ scan w h f, -fltMax < v ∧ v < fltMax) :
    ∃ d, gNormalize nc true img = .ok d ∧ (d.flat nc).Wf ∧
      (d.flat nc).Shows w h (fun x y => f x y / (2 * max |lo| |hi|) + 1 / 2) := by
  obtain ⟨d, e, hw', hs'⟩ := gNormalize_spec true hw hs (lo, hi) (minMax_found _ lo hi first rest hscan hlo hlo' hhi hhi' hr)
  refine ⟨d, e, hw', hs'.width_eq, hs'.height_eq, ?_⟩
  intro x y hx hy
  rw [hs'.pixel_eq x y hx hy]
  have hmem : f x y ∈ scan w h f := by
    unfold scan
    rw [List.mem_flatMap]
    exact ⟨y, by simpa using hy, by rw [List.mem_map]; exact ⟨x, by simpa using hx, rfl⟩⟩
  have h1 := hlo' _ hmem
  have h2 := hhi' _ hmem
  have habs : ∀ v : Rat, (if v < 0 then -v else v) = |v| := by
    intro v
    split
    · rename_i hv
      exact (abs_of_neg hv).symm
    · rename_i hv
      exact (abs_of_nonneg (not_lt.mp hv)).symm
  have hmx : ∀ a b : Rat, (if a > b then a else b) = max a b := by
    intro a b
    split
    · rename_i hv
      exact (max_eq_left hv.le).symm
    · rename_i hv
      exact (max_eq_right (not_lt.mp hv)).symm
  have hcoef : normCoeffs true lo hi = (1 / (2 * max |lo| |hi|), 1 / 2) := by
    unfold normCoeffs
    rw [if_neg (ne_of_gt hlt), if_pos rfl]
    simp only [habs, hmx]
  have hval : |f x y| ≤ max |lo| |hi| := abs_le_max_abs_abs h1 h2
  have hpos : 0 < max |lo| |hi| := by
    rcases lt_or_ge lo 0 with h | h
    · exact lt_max_of_lt_left (abs_pos.mpr (ne_of_lt h))
    · exact lt_max_of_lt_right (abs_pos.mpr (ne_of_gt (lt_of_le_of_lt h hlt)))
  simp only [hcoef]
  generalize max |lo| |hi| = t at hval hpos
  have hb := abs_le.mp hval
  have hval2 : 1 / (2 * t) * f x y + 1 / 2 = f x y / (2 * t) + 1 / 2 := by ring
  have l1 : -(1 / 2) ≤ f x y / (2 * t) := by
    rw [le_div_iff₀ (by linarith)]
    linarith
  have l2 : f x y / (2 * t) ≤ 1 / 2 := by
    rw [div_le_iff₀ (by linarith)]
    linarith
  rw [hval2]
  unfold clampUnit
  rw [if_neg (not_lt.mpr (by linarith)), if_neg (not_lt.mpr (by linarith))]

example : gNormalize 1 true ⟨3, 1, 3, [1, -1, 2]⟩ = .ok ⟨3, 1, 3, [3 / 4, 1 / 4, 1]⟩ := by decide +kernel

/-- C76. An image of one sample becomes black. -/
theorem c76_normalize_single (v : Rat) (hv : -fltMax < v ∧ v < fltMax) :
    ∃ d, gNormalize 1 false ⟨1, 1, 1, [v]⟩ = .ok d ∧ (d.flat 1).Shows 1 1 (fun _ _ => 0) := by
  apply c76_normalize_decreasing (f := fun _ _ => v)
  · exact ⟨Nat.le_refl _, rfl⟩
  · refine ⟨rfl, rfl, ?_⟩
    intro x y hx hy
    obtain rfl : x = 0 := by omega
    obtain rfl : y = 0 := by omega
    rfl
  · exact List.pairwise_singleton _ _
  · intro u hu
    have : u = v := by simpa [scan] using hu
    rw [this]
    exact hv

end Nx
