import Verif.Model.InPlaceArith
import Verif.Spec.ImageArith
import Verif.Lemmas.Sample

/-!
# C133: derivatives and subtraction into the image they read
-/

namespace Nx

/-- The memory holds `F` up to the length `n`. -/
def RHolds (n : Nat) (F : Nat → Rat) (d : List Rat) : Prop := d.length = n ∧ ∀ i, i < n → d[i]? = some (F i)

theorem RHolds.read {n : Nat} {F : Nat → Rat} {d : List Rat} (h : RHolds n F d) {i : Nat} (hi : i < n) : readAt d i = .ok (F i) := by
  unfold readAt
  rw [h.2 i hi]

theorem RHolds.readI {n : Nat} {F : Nat → Rat} {d : List Rat} (h : RHolds n F d) {i : Int} {j : Nat} (e : i = j) (hj : j < n) :
    readI d i = .ok (F j) := by
  subst e
  unfold Nx.readI
  rw [if_pos (by omega), Int.toNat_natCast, h.read hj]

theorem RHolds.write {n : Nat} {F : Nat → Rat} {d : List Rat} (h : RHolds n F d) {i : Nat} (hi : i < n) (v : Rat) {G : Nat → Rat}
    (hG : ∀ k, k < n → G k = if k = i then v else F k) : ∃ d', writeAt d i v = .ok d' ∧ RHolds n G d' := by
  refine ⟨_, writeAt_ok v (by rw [h.1]; exact hi), by rw [List.length_set]; exact h.1, fun k hk => ?_⟩
  rw [List.getElem?_set, hG k hk]
  by_cases e : i = k
  · rw [if_pos e, if_pos (by rw [h.1]; exact hi), if_pos e.symm]
  · rw [if_neg e, if_neg (Ne.symm e), h.2 k hk]

theorem RHolds.writeI {n : Nat} {F : Nat → Rat} {d : List Rat} (h : RHolds n F d) {i : Int} {j : Nat} (e : i = j) (hj : j < n) (v : Rat)
    {G : Nat → Rat} (hG : ∀ k, k < n → G k = if k = j then v else F k) : ∃ d', writeI d i v = .ok d' ∧ RHolds n G d' := by
  subst e
  unfold Nx.writeI
  rw [if_pos (by omega), Int.toNat_natCast]
  exact h.write hj v hG

theorem exists_holds (d : List Rat) : ∃ F, RHolds d.length F d :=
  ⟨fun i => if h : i < d.length then d[i] else 0, rfl, fun i hi => by rw [List.getElem?_eq_getElem hi]; simp [hi]⟩

theorem ipResize_same {junk : Nat → Rat} {img : GImage Rat} {w h : Nat} (hs : w ≤ img.stride) (hh : h ≤ img.height)
    (hc : img.stride * img.height ≤ img.data.length) (hsz : img.stride * img.height ≤ 2147483647) :
    ∃ img', ipResize junk img w h 0 = .ok img' ∧ img' = ⟨w, h, w, img.data⟩ := by
  have hm : w * h ≤ img.stride * img.height := Nat.mul_le_mul hs hh
  unfold ipResize
  split
  · rename_i e
    obtain ⟨e1, e2, e3⟩ := e
    refine ⟨_, rfl, ?_⟩
    cases img
    simp only at e1 e2 e3 hs ⊢
    subst e1 e2 e3
    rw [Nat.le_zero.1 hs]
  · have e : (if 0 < w then w else 0) = w := by split <;> omega
    simp only [e]
    rw [if_pos (by omega), show w * h - img.data.length = 0 by omega]
    exact ⟨_, rfl, by simp⟩

/-! ## The derivative along rows -/

/-- The values when each one uses the one before in place of the pixel before. -/
def fedBack (s : Nat → Rat) : Nat → Rat
  | 0 => 2 * (s 1 - s 0)
  | x + 1 => s (x + 2) - fedBack s x

/-- The last column. -/
def fedRow (w : Nat) (s : Nat → Rat) (x : Nat) : Rat := if x = w - 1 then 2 * (s (w - 1) - fedBack s (w - 2)) else fedBack s x

theorem ipDerivXRow_spec {n w y : Nat} {F : Nat → Rat} {d : List Rat} (hw : 2 ≤ w) (hn : y * w + w ≤ n) (h : RHolds n F d) :
    ∃ d', ipDerivXRow w w y d = .ok d' ∧
      RHolds n (fun k => if y * w ≤ k ∧ k < y * w + w then fedRow w (fun i => F (y * w + i)) (k - y * w) else F k) d' := by
  generalize hs : (fun i => F (y * w + i)) = s
  have hsv : ∀ i, F (y * w + i) = s i := fun i => by rw [← hs]
  obtain ⟨d1, e1, h1⟩ := h.write (i := y * w) (by omega) (2 * (F (y * w + 1) - F (y * w)))
    (G := fun k => if y * w ≤ k ∧ k < y * w + 1 then fedBack s (k - y * w) else F k) (by
      intro k _
      by_cases e : k = y * w
      · rw [if_pos ⟨by omega, by omega⟩, if_pos e, e, Nat.sub_self, fedBack, ← hsv 1, ← hsv 0]
        rfl
      · rw [if_neg (by omega), if_neg e])
  obtain ⟨d2, e2, h2⟩ := forLoop_spec (σ := List Rat)
    (fun x d => RHolds n (fun k => if y * w ≤ k ∧ k < y * w + x then fedBack s (k - y * w) else F k) d)
    (n := w - 1) (i0 := 1) (body := ipDerivXBody w y) (s := d1) (by omega) h1 (by
      intro x d hx1 hx hd
      unfold ipDerivXBody
      rw [hd.read (i := y * w + (x + 1)) (by omega), Res.ok_bind, hd.read (i := y * w + (x - 1)) (by omega), Res.ok_bind]
      refine hd.write (by omega) _ ?_
      intro k _
      by_cases e : k = y * w + x
      · subst e
        rw [if_pos ⟨by omega, by omega⟩, if_pos rfl, if_neg (by omega), if_pos ⟨by omega, by omega⟩, hsv,
          show y * w + x - y * w = (x - 1) + 1 by omega, fedBack, show y * w + (x - 1) - y * w = x - 1 by omega,
          show x - 1 + 2 = x + 1 by omega]
      · rw [if_neg e]
        by_cases e' : y * w ≤ k ∧ k < y * w + x
        · rw [if_pos e', if_pos ⟨e'.1, by omega⟩]
        · rw [if_neg e', if_neg (by omega)])
  obtain ⟨d3, e3, h3⟩ := h2.writeI (i := (y : Int) * w + ((w : Int) - 1)) (j := y * w + (w - 1)) (by push_cast; omega) (by omega)
    (2 * (s (w - 1) - fedBack s (w - 2)))
    (G := fun k => if y * w ≤ k ∧ k < y * w + w then fedRow w s (k - y * w) else F k) (by
      intro k _
      by_cases e : k = y * w + (w - 1)
      · subst e
        rw [if_pos ⟨by omega, by omega⟩, if_pos rfl, fedRow, if_pos (by omega)]
      · rw [if_neg e]
        by_cases e' : y * w ≤ k ∧ k < y * w + w
        · rw [if_pos e', if_pos ⟨e'.1, by omega⟩, fedRow, if_neg (by omega)]
        · rw [if_neg e', if_neg (by omega)])
  refine ⟨d3, ?_, h3⟩
  unfold ipDerivXRow
  rw [h.read (i := y * w + 1) (by omega), Res.ok_bind, h.read (i := y * w) (by omega), Res.ok_bind, e1, Res.ok_bind, e2, Res.ok_bind,
    h2.readI (j := y * w + (w - 1)) (by push_cast; omega) (by omega), Res.ok_bind,
    h2.readI (j := y * w + (w - 2)) (by push_cast; omega) (by omega), Res.ok_bind, if_neg (by omega), if_pos ⟨by omega, by omega⟩, hsv,
    show y * w + (w - 2) - y * w = w - 2 by omega, e3]

/-- C133. The derivative along rows of an image of at least two columns into itself stays inside the memory, but each column uses the
value written to the column before: it is computed from the result, not from the image. -/
theorem c133_deriv_x {junk : Nat → Rat} {img : GImage Rat} {w h : Nat} {f : Nat → Nat → Rat} (hi : img.Shows w h f)
    (hs : img.stride = w) (hc : w * h ≤ img.data.length) (hsz : w * h ≤ 2147483647) (h2 : 2 ≤ w) :
    ∃ d, ipDerivX junk img = .ok d ∧ d.Shows w h (fun x y => fedRow w (fun i => f i y) x) := by
  have ew := hi.width_eq
  have eh := hi.height_eq
  obtain ⟨img', e, rfl⟩ := ipResize_same (junk := junk) (img := img) (w := img.width) (h := img.height) (by omega) (by omega)
    (by rw [hs, eh]; exact hc) (by rw [hs, eh]; exact hsz)
  rw [ew, eh] at e
  obtain ⟨F, hF⟩ := exists_holds img.data
  have hFf : ∀ x y, x < w → y < h → F (y * w + x) = f x y := by
    intro x y hx hy
    have hlt : y * w + w ≤ h * w := by rw [← Nat.succ_mul]; exact Nat.mul_le_mul_right _ hy
    have h1 := hi.pixel_eq x y hx hy
    unfold GImage.pixel at h1
    rw [hs, hF.2 _ (by rw [Nat.mul_comm] at hc; omega)] at h1
    exact Option.some.inj h1
  obtain ⟨d, e2, hd⟩ := forLoop_spec (σ := List Rat)
    (fun y d => RHolds img.data.length (fun k => if k < y * w then fedRow w (fun i => F (k / w * w + i)) (k % w) else F k) d)
    (n := h) (i0 := 0) (body := fun y d => ipDerivXRow w w y d) (s := img.data) (Nat.zero_le _)
    (by
      refine ⟨hF.1, fun i hi => ?_⟩
      simp only
      rw [if_neg (by omega)]
      exact hF.2 i hi)
    (by
      intro y d _ hy hd
      have hlt : y * w + w ≤ h * w := by rw [← Nat.succ_mul]; exact Nat.mul_le_mul_right _ hy
      obtain ⟨d', e', hd'⟩ := ipDerivXRow_spec (y := y) h2 (by rw [Nat.mul_comm] at hc; omega) hd
      refine ⟨d', e', hd'.1, fun k hk => ?_⟩
      rw [hd'.2 k hk]
      simp only
      congr 1
      rw [Nat.succ_mul]
      by_cases e' : y * w ≤ k ∧ k < y * w + w
      · rw [if_pos e', if_pos e'.2]
        have hq : k / w = y := by
          rw [Nat.div_eq_iff (by omega)]
          omega
        have hm : k % w = k - y * w := by
          have := Nat.div_add_mod k w
          rw [hq, Nat.mul_comm] at this
          omega
        rw [hq, hm]
        congr 1
        funext i
        rw [if_neg (by omega)]
      · rw [if_neg e']
        by_cases e2 : k < y * w
        · rw [if_pos e2, if_pos (by omega)]
        · rw [if_neg e2, if_neg (by omega)])
  refine ⟨⟨w, h, w, d⟩, ?_, rfl, rfl, ?_⟩
  · unfold ipDerivX
    rw [ew, eh, e, Res.ok_bind]
    show (forLoop h (fun y d => ipDerivXRow w w y d) 0 img.data).bind _ = _
    rw [e2]
    rfl
  · intro x y hx hy
    have hlt : y * w + w ≤ h * w := by rw [← Nat.succ_mul]; exact Nat.mul_le_mul_right _ hy
    show d[y * w + x]? = _
    rw [hd.2 _ (by rw [Nat.mul_comm] at hc; omega)]
    simp only
    rw [if_pos (by omega)]
    have hq : (y * w + x) / w = y := by
      rw [Nat.div_eq_iff (by omega)]
      omega
    have hm : (y * w + x) % w = x := by
      rw [Nat.mul_comm, Nat.mul_add_mod, Nat.mod_eq_of_lt hx]
    rw [hq, hm]
    congr 1
    unfold fedRow
    have hb : ∀ x, x + 1 < w → fedBack (fun i => F (y * w + i)) x = fedBack (fun i => f i y) x := by
      intro x
      induction x with
      | zero => intro hx; simp only [fedBack]; rw [hFf 1 y (by omega) hy, hFf 0 y (by omega) hy]
      | succ x ih => intro hx; simp only [fedBack]; rw [hFf (x + 2) y (by omega) hy, ih (by omega)]
    by_cases hl : x = w - 1
    · rw [if_pos hl, if_pos hl, hb _ (by omega)]
      simp only
      rw [hFf (w - 1) y (by omega) hy]
    · rw [if_neg hl, if_neg hl, hb x (by omega)]

example : ipDerivX (fun _ => 0) ⟨4, 1, 4, [1, 2, 4, 8]⟩ = .ok ⟨4, 1, 4, [2, 2, 6, 4]⟩ := by decide +kernel

/-- C133 is false for the derivative along rows: the derivative of an image of one value other than 0, with at least three columns, is 0
everywhere, but the image itself is found in its second column. -/
theorem c133_deriv_x_false {junk : Nat → Rat} {img : GImage Rat} {w h : Nat} {c : Rat} (hi : img.Shows w h (fun _ _ => c))
    (hs : img.stride = w) (hc : w * h ≤ img.data.length) (hsz : w * h ≤ 2147483647) (h3 : 3 ≤ w) :
    ∃ d, ipDerivX junk img = .ok d ∧ ∀ y, y < h → d.pixel 1 y = some c ∧ neighbourDiff w (fun _ => c) 1 = 0 := by
  obtain ⟨d, e, hd⟩ := c133_deriv_x (junk := junk) hi hs hc hsz (by omega)
  refine ⟨d, e, fun y hy => ⟨?_, ?_⟩⟩
  · rw [hd.pixel_eq 1 y (by omega) hy]
    congr 1
    rw [fedRow, if_neg (by omega)]
    simp only [fedBack]
    grind
  · unfold neighbourDiff extrapolate
    simp
    grind

example : (⟨3, 1, 3, [5, 5, 5]⟩ : GImage Rat).Shows 3 1 (fun _ _ => 5) :=
  ⟨rfl, rfl, by
    have h : ∀ (x : Fin 3) (y : Fin 1), (⟨3, 1, 3, [5, 5, 5]⟩ : GImage Rat).pixel x.val y.val = some 5 := by decide +kernel
    exact fun x y hx hy => h ⟨x, hx⟩ ⟨y, hy⟩⟩

/-! ## The derivative along columns -/

/-- Zeros up to `n`, then `F`. -/
def zeroTo (n : Nat) (F : Nat → Rat) (k : Nat) : Rat := if k < n then 0 else F k

/-- C133 is false for the derivative along columns: the memory of the image is cleared before it is read, so that every image of at
least two rows becomes 0 everywhere. -/
theorem c133_deriv_y_false {junk : Nat → Rat} {img : GImage Rat} (hs : img.width ≤ img.stride)
    (hc : img.stride * img.height ≤ img.data.length) (hsz : img.stride * img.height ≤ 2147483647) (h2 : 2 ≤ img.height) :
    ∃ d, ipDerivY junk img = .ok d ∧ d.Shows img.width img.height (fun _ _ => 0) := by
  obtain ⟨img', e, rfl⟩ := ipResize_same (junk := junk) (img := img) (w := img.width) (h := img.height) hs (Nat.le_refl _) hc hsz
  have hm : img.width * img.height ≤ img.data.length := Nat.le_trans (Nat.mul_le_mul_right _ hs) hc
  generalize hwe : img.width = w at *
  generalize hhe : img.height = h at *
  obtain ⟨F, hF⟩ := exists_holds img.data
  generalize img.data.length = n at *
  have hrow : ∀ y x, y < h → x < w → y * w + x < w * h := by
    intro y x hy hx
    have : (y + 1) * w ≤ h * w := Nat.mul_le_mul_right _ hy
    rw [Nat.succ_mul, Nat.mul_comm h] at this
    omega
  have hkeep : ∀ (j : Nat), j < w * h → ∀ (v : Rat), v = 0 → ∀ k, k < n →
      zeroTo (w * h) F k = if k = j then v else zeroTo (w * h) F k := by
    intro j hj v hv k _
    split
    · rename_i e; rw [zeroTo, if_pos (by omega), hv]
    · rfl
  have hz : ∀ j, j < w * h → zeroTo (w * h) F j = 0 := fun j hj => by rw [zeroTo, if_pos hj]
  have h0 : RHolds n (zeroTo (w * h) F) (ipZero (w * h) img.data) := by
    have hl := hF.1
    refine ⟨by unfold ipZero; simp; omega, fun i hi => ?_⟩
    unfold ipZero zeroTo
    by_cases hlt : i < w * h
    · rw [List.getElem?_append_left (by simp; omega), if_pos hlt, List.getElem?_map, List.getElem?_take, if_pos hlt, hF.2 i hi]
      rfl
    · rw [List.getElem?_append_right (by simp; omega), if_neg hlt, List.length_map, List.length_take, Nat.min_eq_left (by omega),
        List.getElem?_drop, show w * h + (i - w * h) = i by omega, hF.2 i hi]
  obtain ⟨d1, e1, h1⟩ := forLoop_spec (σ := List Rat) (fun _ d => RHolds n (zeroTo (w * h) F) d) (n := w) (i0 := 0)
    (body := ipDerivYFirst w) (s := ipZero (w * h) img.data) (Nat.zero_le _) h0 (by
      intro x d _ hx hd
      have a := hrow 1 x (by omega) hx
      have b := hrow 0 x (by omega) hx
      unfold ipDerivYFirst
      rw [hd.read (i := x + w) (by omega), Res.ok_bind, hd.read (i := x) (by omega), Res.ok_bind]
      refine hd.write (by omega) _ (hkeep x (by omega) _ ?_)
      rw [hz _ (by omega), hz _ (by omega)]
      decide +kernel)
  obtain ⟨d2, e2, h2'⟩ := forLoop_spec (σ := List Rat) (fun _ d => RHolds n (zeroTo (w * h) F) d) (n := h - 1) (i0 := 1)
    (body := fun y d => forLoop w (ipDerivYBody w y) 0 d) (s := d1) (by omega) h1 (by
      intro y d hy1 hy hd
      exact forLoop_spec (σ := List Rat) (fun _ d => RHolds n (zeroTo (w * h) F) d) (n := w) (i0 := 0)
        (body := ipDerivYBody w y) (s := d) (Nat.zero_le _) hd (by
          intro x d _ hx hd
          have a := hrow (y + 1) x (by omega) hx
          have b := hrow (y - 1) x (by omega) hx
          have c := hrow y x (by omega) hx
          unfold ipDerivYBody
          rw [hd.read (i := (y + 1) * w + x) (by omega), Res.ok_bind, hd.read (i := (y - 1) * w + x) (by omega), Res.ok_bind]
          refine hd.write (by omega) _ (hkeep _ c _ ?_)
          rw [hz _ a, hz _ b]
          decide +kernel))
  obtain ⟨d3, e3, h3⟩ := forLoop_spec (σ := List Rat) (fun _ d => RHolds n (zeroTo (w * h) F) d) (n := w) (i0 := 0)
    (body := ipDerivYLast h w) (s := d2) (Nat.zero_le _) h2' (by
      intro x d _ hx hd
      have a := hrow (h - 1) x (by omega) hx
      have b := hrow (h - 2) x (by omega) hx
      have i1 : (x : Int) + ((h : Int) - 1) * w = ((h - 1) * w + x : Nat) := by
        rw [show ((h : Int) - 1) = ((h - 1 : Nat) : Int) by omega]; push_cast; omega
      have i2 : (x : Int) + ((h : Int) - 2) * w = ((h - 2) * w + x : Nat) := by
        rw [show ((h : Int) - 2) = ((h - 2 : Nat) : Int) by omega]; push_cast; omega
      unfold ipDerivYLast
      rw [hd.readI i1 (by omega), Res.ok_bind, hd.readI i2 (by omega), Res.ok_bind]
      refine hd.writeI i1 (by omega) _ (hkeep _ a _ ?_)
      rw [hz _ a, hz _ b]
      decide +kernel)
  refine ⟨⟨w, h, w, d3⟩, ?_, rfl, rfl, ?_⟩
  · unfold ipDerivY
    rw [hwe, hhe, e, Res.ok_bind]
    show (forLoop w (ipDerivYFirst w) 0 (ipZero (w * h) img.data)).bind _ = _
    rw [e1]
    show (forLoop (h - 1) (fun y d => forLoop w (ipDerivYBody w y) 0 d) 1 d1).bind _ = _
    rw [e2]
    show (forLoop w (ipDerivYLast h w) 0 d2).bind _ = _
    rw [e3]
    rfl
  · intro x y hx hy
    have a := hrow y x hy hx
    show d3[y * w + x]? = _
    rw [h3.2 _ (by omega), hz _ a]

example : ipDerivY (fun _ => 0) ⟨2, 2, 2, [1, 2, 4, 8]⟩ = .ok ⟨2, 2, 2, [0, 0, 0, 0]⟩ := by decide +kernel

/-! ## Subtraction -/

/-- C133. Subtracting an image from one that receives the difference stays inside the memory; the sample that is reduced is the one
where the pixel is in rows without gaps of the common width. -/
theorem c133_subtract {junk : Nat → Rat} {img0 img1 : GImage Rat} {w1 h1 : Nat} {g : Nat → Nat → Rat} (hg : img1.Shows w1 h1 g)
    (hs : img0.width ≤ img0.stride) (hc : img0.stride * img0.height ≤ img0.data.length)
    (hsz : img0.stride * img0.height ≤ 2147483647) :
    ∃ d, ipSubtract junk img0 img1 = .ok d ∧ d.width = min img0.width w1 ∧ d.height = min img0.height h1 ∧
      ∀ x y, x < min img0.width w1 → y < min img0.height h1 →
        ∃ a, img0.data[y * min img0.width w1 + x]? = some a ∧ d.pixel x y = some (a - g x y) := by
  have ew := hg.width_eq
  have eh := hg.height_eq
  obtain ⟨img', e, rfl⟩ := ipResize_same (junk := junk) (img := img0) (w := min img0.width w1) (h := min img0.height h1) (by omega)
    (by omega) hc hsz
  have hm : min img0.width w1 * min img0.height h1 ≤ img0.data.length :=
    Nat.le_trans (Nat.mul_le_mul (show _ ≤ img0.stride by omega) (show _ ≤ img0.height by omega)) hc
  have hw1 : min img0.width w1 ≤ w1 := Nat.min_le_right _ _
  have hh1 : min img0.height h1 ≤ h1 := Nat.min_le_right _ _
  obtain ⟨F, hF⟩ := exists_holds img0.data
  generalize hw : min img0.width w1 = w at *
  generalize hh : min img0.height h1 = h at *
  generalize hn : img0.data.length = n at *
  have hrow : ∀ y x, y < h → x < w → y * w + x < w * h := by
    intro y x hy hx
    have : (y + 1) * w ≤ h * w := Nat.mul_le_mul_right _ hy
    rw [Nat.succ_mul, Nat.mul_comm h] at this
    omega
  have hp : ∀ x y, x < w → y < h → readAt img1.data (y * img1.stride + x) = .ok (g x y) := by
    intro x y hx hy
    have := hg.pixel_eq x y (by omega) (by omega)
    unfold GImage.pixel at this
    unfold readAt
    rw [this]
  obtain ⟨d, e2, hd⟩ := forLoop_spec (σ := List Rat)
    (fun y d => RHolds n (fun k => if k < y * w then F k - g (k % w) (k / w) else F k) d) (n := h) (i0 := 0)
    (body := fun y d => forLoop w (fun x d => do
      let a ← readAt d (y * w + x)
      let b ← readAt img1.data (y * img1.stride + x)
      writeAt d (y * w + x) (a - b)) 0 d) (s := img0.data) (Nat.zero_le _)
    (by
      refine ⟨hF.1, fun i hi => ?_⟩
      simp only
      rw [if_neg (by omega)]
      exact hF.2 i hi)
    (by
      intro y d _ hy hd
      obtain ⟨d', e', hd'⟩ := forLoop_spec (σ := List Rat)
        (fun x d => RHolds n (fun k => if k < y * w + x then F k - g (k % w) (k / w) else F k) d) (n := w) (i0 := 0)
        (body := fun x d => do
          let a ← readAt d (y * w + x)
          let b ← readAt img1.data (y * img1.stride + x)
          writeAt d (y * w + x) (a - b)) (s := d) (Nat.zero_le _) hd (by
          intro x d _ hx hd
          have a := hrow y x hy hx
          rw [hd.read (i := y * w + x) (by omega), Res.ok_bind, hp x y hx hy, Res.ok_bind]
          refine hd.write (by omega) _ ?_
          intro k _
          by_cases e : k = y * w + x
          · subst e
            have hq : (y * w + x) / w = y := by
              rw [Nat.div_eq_iff (by omega)]
              omega
            have hmo : (y * w + x) % w = x := by
              rw [Nat.mul_comm, Nat.mul_add_mod, Nat.mod_eq_of_lt hx]
            rw [if_pos (by omega), if_pos rfl, if_neg (by omega), hq, hmo]
          · rw [if_neg e]
            by_cases e' : k < y * w + x
            · rw [if_pos e', if_pos (by omega)]
            · rw [if_neg e', if_neg (by omega)])
      exact ⟨d', e', by rw [Nat.succ_mul]; exact hd'⟩)
  refine ⟨⟨w, h, w, d⟩, ?_, rfl, rfl, ?_⟩
  · unfold ipSubtract
    rw [ew, eh, hw, hh]
    simp only [e, Res.ok_bind]
    show (forLoop h _ 0 img0.data).bind _ = _
    rw [e2]
    rfl
  · intro x y hx hy
    have a := hrow y x hy hx
    have hq : (y * w + x) / w = y := by
      rw [Nat.div_eq_iff (by omega)]
      omega
    have hmo : (y * w + x) % w = x := by
      rw [Nat.mul_comm, Nat.mul_add_mod, Nat.mod_eq_of_lt hx]
    refine ⟨F (y * w + x), hF.2 _ (by omega), ?_⟩
    show d[y * w + x]? = _
    rw [hd.2 _ (by omega)]
    simp only
    have b : y * w + x < h * w := by rw [Nat.mul_comm h]; exact a
    rw [if_pos b, hq, hmo]

/-- C133. If the image has no gaps between rows and is not wider than the other one, the difference is right. -/
theorem c133_subtract_partial {junk : Nat → Rat} {img0 img1 : GImage Rat} {w0 h0 w1 h1 : Nat} {f g : Nat → Nat → Rat}
    (hf : img0.Shows w0 h0 f) (hg : img1.Shows w1 h1 g) (hs : img0.stride = w0) (hw : w0 ≤ w1)
    (hc : w0 * h0 ≤ img0.data.length) (hsz : w0 * h0 ≤ 2147483647) :
    ∃ d, ipSubtract junk img0 img1 = .ok d ∧ d.Shows w0 (min h0 h1) (fun x y => f x y - g x y) := by
  have ew := hf.width_eq
  have eh := hf.height_eq
  obtain ⟨d, e, d1, d2, hd⟩ := c133_subtract (junk := junk) (img0 := img0) hg (by omega)
    (by rw [hs, eh]; exact hc) (by rw [hs, eh]; exact hsz)
  rw [ew, Nat.min_eq_left hw] at d1 hd
  rw [eh] at d2 hd
  refine ⟨d, e, d1, d2, fun x y hx hy => ?_⟩
  obtain ⟨a, ha, hp⟩ := hd x y hx hy
  have := hf.pixel_eq x y hx (by omega)
  unfold GImage.pixel at this
  rw [hs, ha] at this
  cases this
  exact hp

example : (⟨2, 1, 2, [5, 7]⟩ : GImage Rat).Shows 2 1 (fun x _ => 5 + 2 * x) :=
  ⟨rfl, rfl, by
    have h : ∀ (x : Fin 2) (y : Fin 1), (⟨2, 1, 2, [5, 7]⟩ : GImage Rat).pixel x.val y.val = some (5 + 2 * (x.val : Rat)) := by
      decide +kernel
    exact fun x y hx hy => h ⟨x, hx⟩ ⟨y, hy⟩⟩

/-- C133 is false for subtraction otherwise: with a gap between the rows, or a narrower image to subtract, the second row is taken from
wrong places. -/
theorem c133_subtract_false :
    ipSubtract (fun _ => 0) ⟨1, 2, 2, [5, 9, 7, 9]⟩ ⟨1, 2, 1, [0, 0]⟩ = .ok ⟨1, 2, 1, [5, 9, 7, 9]⟩ ∧
      ipSubtract (fun _ => 0) ⟨2, 2, 2, [5, 6, 7, 8]⟩ ⟨1, 2, 1, [0, 0]⟩ = .ok ⟨1, 2, 1, [5, 6, 7, 8]⟩ := by decide +kernel

/-! ## Subtraction of 8-bit images -/

theorem readF32_ok {m : Bytes} {k : Nat} (h : 4 * k + 3 < m.length) : ∃ v, readF32 m k = .ok v := by
  unfold readF32
  rw [readAt_ok (by omega), Res.ok_bind, readAt_ok (by omega), Res.ok_bind, readAt_ok (by omega), Res.ok_bind, readAt_ok h, Res.ok_bind]
  exact ⟨_, rfl⟩

theorem readAt_beyond {α : Type} {m : List α} {i : Nat} (h : m.length ≤ i) : readAt m i = .ub := by
  unfold readAt
  rw [List.getElem?_eq_none h]

theorem readF32_ub {m : Bytes} {k : Nat} (h : m.length ≤ 4 * k + 3) : readF32 m k = .ub := by
  unfold readF32
  rcases Nat.lt_or_ge (4 * k) m.length with h0 | h0
  · rw [readAt_ok h0, Res.ok_bind]
    rcases Nat.lt_or_ge (4 * k + 1) m.length with h1 | h1
    · rw [readAt_ok h1, Res.ok_bind]
      rcases Nat.lt_or_ge (4 * k + 2) m.length with h2 | h2
      · rw [readAt_ok h2, Res.ok_bind, readAt_beyond h]; rfl
      · rw [readAt_beyond h2]; rfl
    · rw [readAt_beyond h1]; rfl
  · rw [readAt_beyond h0]; rfl

theorem writeF32_ok {m : Bytes} {k : Nat} (v : BitVec 32) (h : 4 * k + 3 < m.length) :
    ∃ m', writeF32 m k v = .ok m' ∧ m'.length = m.length := by
  unfold writeF32
  rw [writeAt_ok _ (by omega), Res.ok_bind, writeAt_ok _ (by simp; omega), Res.ok_bind, writeAt_ok _ (by simp; omega), Res.ok_bind,
    writeAt_ok _ (by simp; omega)]
  exact ⟨_, rfl, by simp⟩

/-- A loop that goes on or is undefined in each step, and is undefined in one of them. -/
theorem forLoop_reaches_ub {σ : Type} (P : σ → Prop) {n : Nat} {body : Nat → σ → Res σ} {j : Nat} (hj : j < n)
    (hs : ∀ i s, i < j → P s → body i s = .ub ∨ ∃ s', body i s = .ok s' ∧ P s') (hu : ∀ s, P s → body j s = .ub) :
    ∀ (k i : Nat) (s : σ), j - i = k → i ≤ j → P s → forLoop n body i s = .ub := by
  intro k
  induction k with
  | zero =>
    intro i s hk hi hp
    have : i = j := by omega
    subst this
    rw [forLoop, if_pos hj, hu s hp]; rfl
  | succ k ih =>
    intro i s hk hi hp
    rw [forLoop, if_pos (by omega)]
    rcases hs i s (by omega) hp with e | ⟨s', e, hp'⟩
    · rw [e]; rfl
    · rw [e, Res.ok_bind]
      exact ih (i + 1) s' (by omega) (by omega) hp'

/-- C133 is false for 8-bit images: if the difference goes into the first image, the second one is read as `float`. That leaves its
memory if it does not happen to have four bytes for each sample. -/
theorem c133_subtract_bytes_false {sub : BitVec 32 → BitVec 32 → BitVec 32} {junk : Nat → UInt8} {img0 img1 : GImage UInt8} {w h : Nat}
    (hw : min img0.width img1.width = w + 1) (hh : min img0.height img1.height = h + 1)
    (hsz : (w + 1) * (h + 1) ≤ 2147483647) (hc : img1.data.length < 4 * (h * img1.stride + w + 1)) :
    ipSubBytesFirst sub junk img0 img1 = .ub := by
  unfold ipSubBytesFirst ipResizeF32
  rw [hw, hh]
  simp only
  rw [if_pos hsz, Res.ok_bind]
  simp only
  have key : ∀ y x, y < h + 1 → x < w + 1 → 4 * (y * (w + 1) + x) + 3 < (w + 1) * (h + 1) * 4 := by
    intro y x hy hx
    have : y * (w + 1) + (w + 1) ≤ (h + 1) * (w + 1) := by
      have := Nat.mul_le_mul_right (w + 1) hy
      rw [Nat.succ_mul] at this
      exact this
    rw [Nat.mul_comm (w + 1) (h + 1)]
    omega
  have hstep : ∀ y x (d : Bytes), y < h + 1 → x < w + 1 → (w + 1) * (h + 1) * 4 ≤ d.length →
      ((do
        let a ← readF32 d (y * (w + 1) + x)
        let b ← readF32 img1.data (y * img1.stride + x)
        writeF32 d (y * (w + 1) + x) (sub a b)) = Res.ub ∨ ∃ d', (do
        let a ← readF32 d (y * (w + 1) + x)
        let b ← readF32 img1.data (y * img1.stride + x)
        writeF32 d (y * (w + 1) + x) (sub a b)) = .ok d' ∧ (w + 1) * (h + 1) * 4 ≤ d'.length) := by
    intro y x d hy hx hd
    have := key y x hy hx
    obtain ⟨a, ea⟩ := readF32_ok (m := d) (k := y * (w + 1) + x) (by omega)
    rw [ea, Res.ok_bind]
    rcases Nat.lt_or_ge (4 * (y * img1.stride + x) + 3) img1.data.length with h1 | h1
    · obtain ⟨b, eb⟩ := readF32_ok h1
      obtain ⟨d', ed, hl⟩ := writeF32_ok (m := d) (k := y * (w + 1) + x) (sub a b) (by omega)
      rw [eb, Res.ok_bind]
      exact .inr ⟨d', ed, by omega⟩
    · rw [readF32_ub h1]
      exact .inl rfl
  rw [forLoop_reaches_ub (fun d : Bytes => (w + 1) * (h + 1) * 4 ≤ d.length) (j := h) (by omega) ?_ ?_ h 0 _ rfl (Nat.zero_le _) ?_]
  · rfl
  · intro y d hy hd
    rcases Classical.em (∃ x, x < w + 1 ∧ img1.data.length ≤ 4 * (y * img1.stride + x) + 3) with ⟨x, hx, hb⟩ | hn
    · refine .inl (forLoop_reaches_ub (fun d : Bytes => (w + 1) * (h + 1) * 4 ≤ d.length) (j := x) hx
        (fun i s hi hs => hstep y i s (by omega) (by omega) hs) ?_ x 0 _ rfl (Nat.zero_le _) hd)
      intro s hs
      have := key y x (by omega) hx
      obtain ⟨a, ea⟩ := readF32_ok (m := s) (k := y * (w + 1) + x) (by omega)
      rw [ea, Res.ok_bind, readF32_ub hb]; rfl
    · refine .inr (forLoop_spec (fun _ (d : Bytes) => (w + 1) * (h + 1) * 4 ≤ d.length) (Nat.zero_le _) hd ?_)
      intro x s _ hx hs
      rcases hstep y x s (by omega) hx hs with e | e
      · exfalso
        have h1 : 4 * (y * img1.stride + x) + 3 < img1.data.length := by
          rcases Nat.lt_or_ge (4 * (y * img1.stride + x) + 3) img1.data.length with h | h
          · exact h
          · exact absurd ⟨x, hx, h⟩ hn
        have := key y x (by omega) hx
        obtain ⟨a, ea⟩ := readF32_ok (m := s) (k := y * (w + 1) + x) (by omega)
        obtain ⟨b, eb⟩ := readF32_ok h1
        obtain ⟨d', ed, _⟩ := writeF32_ok (m := s) (k := y * (w + 1) + x) (sub a b) (by omega)
        rw [ea, Res.ok_bind, eb, Res.ok_bind, ed] at e
        cases e
      · exact e
  · intro d hd
    refine forLoop_reaches_ub (fun d : Bytes => (w + 1) * (h + 1) * 4 ≤ d.length) (j := w) (by omega)
        (fun i s hi hs => hstep h i s (by omega) (by omega) hs) ?_ w 0 _ rfl (Nat.zero_le _) hd
    intro s hs
    have := key h w (by omega) (by omega)
    obtain ⟨a, ea⟩ := readF32_ok (m := s) (k := h * (w + 1) + w) (by omega)
    rw [ea, Res.ok_bind, readF32_ub (by omega)]; rfl
  · simp only [List.length_append, List.length_map, List.length_range]
    omega

/-- So it is for two images of one size without gaps between rows, each with the memory it needs. -/
theorem c133_subtract_bytes_same_size {sub : BitVec 32 → BitVec 32 → BitVec 32} {junk : Nat → UInt8} {img0 img1 : GImage UInt8}
    {w h : Nat} (h0 : img0.width = w + 1 ∧ img0.height = h + 1) (h1 : img1.width = w + 1 ∧ img1.height = h + 1)
    (hs : img1.stride = w + 1) (hd : img1.data.length = (w + 1) * (h + 1)) (hsz : (w + 1) * (h + 1) ≤ 2147483647) :
    ipSubBytesFirst sub junk img0 img1 = .ub := by
  refine c133_subtract_bytes_false (w := w) (h := h) (by omega) (by omega) hsz ?_
  rw [hd, hs, Nat.mul_comm (w + 1), Nat.succ_mul]
  omega

example : ipSubBytesFirst (fun a _ => a) (fun _ => 0) ⟨2, 1, 2, [5, 7]⟩ ⟨2, 1, 2, [1, 2]⟩ = .ub :=
  c133_subtract_bytes_same_size (w := 1) (h := 0) ⟨rfl, rfl⟩ ⟨rfl, rfl⟩ rfl rfl (by omega)

/-- C133. If the difference of 8-bit images goes into the second one, only memory of the two images is used. -/
theorem c133_subtract_bytes_second_safe {junk : Nat → UInt8} {img0 img1 : GImage UInt8} (hs : img0.width ≤ img0.stride)
    (hc : img0.stride * img0.height ≤ img0.data.length) (hsz : min img0.width img1.width * min img0.height img1.height ≤ 2147483647) :
    ∃ d, ipSubBytesSecond junk img0 img1 = .ok d ∧ d.width = min img0.width img1.width ∧ d.height = min img0.height img1.height := by
  unfold ipSubBytesSecond ipResizeF32
  simp only
  rw [if_pos hsz, Res.ok_bind]
  simp only
  generalize hw : min img0.width img1.width = w at *
  generalize hh : min img0.height img1.height = h at *
  have key : ∀ y x, y < h → x < w → y * w + x + 1 ≤ w * h := by
    intro y x hy hx
    have := Nat.mul_le_mul_right w hy
    rw [Nat.succ_mul] at this
    rw [Nat.mul_comm w h]
    omega
  obtain ⟨d, e, _⟩ := forLoop_spec (n := h) (i0 := 0) (body := fun y d => forLoop w (fun x d => do
      let a ← readAt img0.data (y * img0.stride + x)
      let b ← readAt d (y * w + x)
      writeF32 d (y * w + x) (f32OfInt ((a.toNat : Int) - (b.toNat : Int)))) 0 d)
    (s := img1.data ++ (List.range (w * h * 4 - img1.data.length)).map junk)
    (fun _ (d : Bytes) => w * h * 4 ≤ d.length) (Nat.zero_le _)
    (by simp only [List.length_append, List.length_map, List.length_range]; omega) (by
      intro y d _ hy hd
      refine forLoop_spec (fun _ (d : Bytes) => w * h * 4 ≤ d.length) (Nat.zero_le _) hd ?_
      intro x d _ hx hd
      have k := key y x hy hx
      have b0 : y * img0.stride + x < img0.data.length := by
        have := Nat.mul_le_mul_left img0.stride (show y + 1 ≤ img0.height by omega)
        rw [Nat.mul_add, Nat.mul_comm img0.stride y] at this
        omega
      rw [readAt_ok b0, Res.ok_bind, readAt_ok (by omega), Res.ok_bind]
      obtain ⟨d', ed, hl⟩ := writeF32_ok (m := d) (k := y * w + x)
        (f32OfInt ((img0.data[y * img0.stride + x].toNat : Int) - (d[y * w + x].toNat : Int))) (by omega)
      exact ⟨d', ed, by omega⟩)
  rw [e, Res.ok_bind]
  exact ⟨_, rfl, rfl, rfl⟩

/-- C133 is false there also: the third difference of 5 and 0 is -155, as a byte of the first difference is taken for the sample. -/
theorem c133_subtract_bytes_second_false :
    ∃ d, ipSubBytesSecond (fun _ => 0) ⟨3, 1, 3, [5, 5, 5]⟩ ⟨3, 1, 3, [0, 0, 0]⟩ = .ok d ∧ readF32 d.data 2 = .ok (f32OfInt (-155)) ∧
      f32OfInt (-155) ≠ f32OfInt (5 - 0) := by
  refine ⟨⟨3, 1, 3, [0, 0, 0xA0, 0x40, 0, 0, 0xA0, 0x40, 0, 0, 0x1B, 0xC3]⟩, ?_, ?_, ?_⟩ <;> decide +kernel

end Nx
