import Verif.Model.InPlaceScale
import Verif.Props.Warp
import Verif.Props.InPlace
import Verif.Props.InPlaceArith

/-!
# C141: scaling an image into itself
-/

namespace Nx

section
variable {α : Type} {conv : α → Rat} {store : Rat → Res α}

/-- What is computed for one pixel from a memory that holds `m` at the four places. -/
theorem scalePixel_mem {d : List α} {st : Nat} {m : Nat → α} {xp yp : Rat} (hx0 : 0 ≤ xp) (hy0 : 0 ≤ yp) {n k : Nat}
    (hx1 : xp < (n : Rat) - 1) (hy1 : yp < (k : Rat) - 1) (hn : n ≤ 2147483647) (hk : k ≤ 2147483647)
    (hm : ∀ i j : Nat, (i = ⌊xp⌋.toNat ∨ i = ⌊xp⌋.toNat + 1) → (j = ⌊yp⌋.toNat ∨ j = ⌊yp⌋.toNat + 1) →
      d[j * st + i]? = some (m (j * st + i))) :
    scalePixel conv store d st xp yp = store (bilinearAt (fun i j => conv (m (j.toNat * st + i.toNat))) xp yp) := by
  obtain ⟨x1, x2⟩ := floor_inside hx0 hx1
  obtain ⟨y1, y2⟩ := floor_inside hy0 hy1
  unfold scalePixel
  rw [(truncInt_fits (fits_of hx0 hx1 hn)).1, (truncInt_fits (fits_of hy0 hy1 hk)).1, ratTrunc_nonneg hx0, ratTrunc_nonneg hy0]
  simp only [Res.ok_bind]
  have hr : ∀ a b : Int, (a = ⌊xp⌋ ∨ a = ⌊xp⌋ + 1) → (b = ⌊yp⌋ ∨ b = ⌊yp⌋ + 1) →
      readI d (b * st + a) = .ok (m (b.toNat * st + a.toNat)) := by
    intro a b ha hb
    have e : b * (st : Int) + a = ((b.toNat * st + a.toNat : Nat) : Int) := by
      push_cast
      rw [Int.toNat_of_nonneg (by omega), Int.toNat_of_nonneg (by omega)]
    rw [e, readI, if_pos (by omega), Int.toNat_natCast]
    exact readAt_some (hm _ _ (by omega) (by omega))
  unfold readFour
  simp only
  rw [hr _ _ (Or.inl rfl) (Or.inl rfl), Res.ok_bind, hr _ _ (Or.inr rfl) (Or.inl rfl), Res.ok_bind,
    hr _ _ (Or.inl rfl) (Or.inr rfl), Res.ok_bind, hr _ _ (Or.inr rfl) (Or.inr rfl), Res.ok_bind]
  rfl

theorem floor_mul_le {s : Rat} (hs1 : s < 1) (n : Nat) : ⌊(n : Rat) * s⌋ ≤ n := by
  have h0 : (0 : Rat) ≤ n := Nat.cast_nonneg n
  have : (n : Rat) * s ≤ (n : Int) := by
    push_cast
    nlinarith
  have := Int.floor_le_floor this
  rwa [Int.floor_intCast] at this

/-- Shrinking keeps the memory. -/
theorem ipResize_smaller {junk : Nat → α} {img : GImage α} {w h : Nat} (hc : img.stride * img.height ≤ img.data.length)
    (hsz : img.stride * img.height ≤ 2147483647) (hw : w ≤ img.stride) (hh : h ≤ img.height) :
    ipResize junk img w h w = .ok ⟨w, h, w, img.data⟩ := by
  have hm : w * h ≤ img.stride * img.height := Nat.mul_le_mul hw hh
  unfold ipResize
  split
  · rename_i e
    obtain ⟨h1, h2, h3⟩ := e
    cases img
    simp only at h1 h2 h3 ⊢
    rw [h1, h2, h3]
  · simp only [Nat.lt_irrefl, if_false]
    rw [if_pos (by omega), show w * h - img.data.length = 0 by omega]
    simp

/-- C141. Making an image smaller in place stays inside its memory, and every pixel is the interpolation, at its position divided by the
scale, in the memory as it was read with rows of the new length; the memory after the pixels is unchanged. -/
theorem c141_down (junk : Nat → α) {img : GImage α} {m : Nat → α} {s : Rat} {S : Nat → Nat → α} (hs : img.width ≤ img.stride)
    (hc : img.stride * img.height ≤ img.data.length) (hsz : img.stride * img.height ≤ 2147483647)
    (hw : img.width ≤ 2147483647) (hh : img.height ≤ 2147483647) (hs0 : 0 < s) (hs1 : s < 1)
    (hm : ∀ i : Nat, i < img.data.length → img.data[i]? = some (m i))
    (hS : ∀ x y : Nat, x < ⌊(img.width : Rat) * s⌋.toNat → y < ⌊(img.height : Rat) * s⌋.toNat →
      store (bilinearAt (fun i j => conv (m (j.toNat * ⌊(img.width : Rat) * s⌋.toNat + i.toNat))) (x / s) (y / s)) = .ok (S x y)) :
    ∃ d, ipScale conv store junk img s = .ok d ∧ d.width = ⌊(img.width : Rat) * s⌋.toNat ∧ d.height = ⌊(img.height : Rat) * s⌋.toNat ∧
      d.stride = ⌊(img.width : Rat) * s⌋.toNat ∧ d.data.length = img.data.length ∧
      (∀ x y, x < ⌊(img.width : Rat) * s⌋.toNat → y < ⌊(img.height : Rat) * s⌋.toNat → d.pixel x y = some (S x y)) ∧
      ∀ i, ⌊(img.width : Rat) * s⌋.toNat * ⌊(img.height : Rat) * s⌋.toNat ≤ i → d.data[i]? = img.data[i]? := by
  have lw := floor_mul_le hs1 img.width
  have lh := floor_mul_le hs1 img.height
  obtain ⟨tw, w0, wx⟩ := scaleSize hs0 (scaledInside_of_lt img.width hs1) (by omega)
  obtain ⟨th, h0, hx⟩ := scaleSize hs0 (scaledInside_of_lt img.height hs1) (by omega)
  unfold ipScale
  rw [tw, th]
  simp only [Res.ok_bind]
  rw [if_neg (by omega), ipResize_smaller hc hsz (by omega) (by omega)]
  simp only [Res.ok_bind]
  generalize hW : ⌊(img.width : Rat) * s⌋.toNat = W at *
  generalize hH : ⌊(img.height : Rat) * s⌋.toNat = H at *
  have hWw : W ≤ img.width := by omega
  have hHh : H ≤ img.height := by omega
  let P : Nat → List α → Prop := fun b d => d.length = img.data.length ∧ (∀ i, i < b → d[i]? = some (S (i % W) (i / W))) ∧
    ∀ i, b ≤ i → d[i]? = img.data[i]?
  have step : ∀ y x d, y < H → x < W → P (y * W + x) d →
      ∃ d', ipScaleBody conv store s W y x d = .ok d' ∧ P (y * W + (x + 1)) d' := by
    intro y x d hy hxW hP
    have a := wx x hxW
    have b := hx y hy
    obtain ⟨fx0, fx1⟩ := floor_inside a.1 a.2
    obtain ⟨fy0, fy1⟩ := floor_inside b.1 b.2
    have one : 1 ≤ 1 / s := by
      rw [le_div_iff₀ hs0]
      linarith
    have gx : (x : Int) ≤ ⌊(x : Rat) * (1 / s)⌋ := by
      rw [Int.le_floor]
      push_cast
      have : (0 : Rat) ≤ x := Nat.cast_nonneg x
      nlinarith
    have gy : (y : Int) ≤ ⌊(y : Rat) * (1 / s)⌋ := by
      rw [Int.le_floor]
      push_cast
      have : (0 : Rat) ≤ y := Nat.cast_nonneg y
      nlinarith
    have hin : ∀ i j : Nat, x ≤ i → i < img.width → y ≤ j → j < img.height → d[j * W + i]? = some (m (j * W + i)) := by
      intro i j hi hi' hj hj'
      have h1 : y * W ≤ j * W := Nat.mul_le_mul_right _ hj
      have h2 : j * W + i < img.data.length := by
        have h3 : j * W ≤ j * img.stride := Nat.mul_le_mul_left _ (by omega)
        have h4 : (j + 1) * img.stride ≤ img.height * img.stride := Nat.mul_le_mul_right _ hj'
        rw [Nat.succ_mul, Nat.mul_comm img.height] at h4
        omega
      rw [hP.2.2 _ (by omega)]
      exact hm _ h2
    unfold ipScaleBody
    rw [scalePixel_mem (m := m) a.1 b.1 a.2 b.2 hw hh (fun i j hi hj => hin i j (by omega) (by omega) (by omega) (by omega)), mul_one_div,
      mul_one_div, hS x y hxW hy]
    simp only [Res.ok_bind]
    have hlt : y * W + x < d.length := by
      have := Nat.mul_le_mul_right W hy
      rw [Nat.succ_mul] at this
      have h4 : H * W ≤ img.height * img.stride := Nat.mul_le_mul hHh (by omega)
      rw [Nat.mul_comm img.height] at h4
      rw [hP.1]
      omega
    rw [writeAt_ok _ hlt]
    refine ⟨_, rfl, by rw [List.length_set]; exact hP.1, ?_, ?_⟩
    · intro i hi
      rw [List.getElem?_set]
      by_cases e : y * W + x = i
      · subst e
        rw [if_pos rfl, if_pos hlt]
        have e1 : (y * W + x) % W = x := by
          rw [Nat.add_comm, Nat.add_mul_mod_self_right, Nat.mod_eq_of_lt hxW]
        have e2 : (y * W + x) / W = y := by
          rw [Nat.add_comm, Nat.add_mul_div_right _ _ (by omega), Nat.div_eq_of_lt hxW, Nat.zero_add]
        rw [e1, e2]
      · rw [if_neg e]
        exact hP.2.1 i (by omega)
    · intro i hi
      rw [List.getElem?_set, if_neg (by omega)]
      exact hP.2.2 i (by omega)
  obtain ⟨d, e, hP⟩ := forLoop_spec (n := H) (i0 := 0) (s := img.data)
    (body := fun y d => forLoop W (ipScaleBody conv store s W y) 0 d) (fun y d => P (y * W) d) (Nat.zero_le _)
    ⟨rfl, fun i hi => by omega, fun _ _ => rfl⟩ (by
      intro y d _ hy hP
      obtain ⟨d', e', hP'⟩ := forLoop_spec (n := W) (i0 := 0) (s := d) (body := ipScaleBody conv store s W y)
        (fun x d => P (y * W + x) d) (Nat.zero_le _) hP (fun x d _ hx hP => step y x d hy hx hP)
      refine ⟨d', e', ?_⟩
      rw [Nat.succ_mul]
      exact hP')
  rw [e]
  refine ⟨_, rfl, rfl, rfl, rfl, hP.1, ?_, ?_⟩
  · intro x y hx hy
    have hb : y * W + W ≤ H * W := by
      have := Nat.mul_le_mul_right W hy
      rw [Nat.succ_mul] at this
      exact this
    show d[y * W + x]? = _
    rw [hP.2.1 _ (by omega)]
    have e1 : (y * W + x) % W = x := by
      rw [Nat.add_comm, Nat.add_mul_mod_self_right, Nat.mod_eq_of_lt hx]
    have e2 : (y * W + x) / W = y := by
      rw [Nat.add_comm, Nat.add_mul_div_right _ _ (by omega), Nat.div_eq_of_lt hx, Nat.zero_add]
    rw [e1, e2]
  · intro i hi
    exact hP.2.2 i (by rw [Nat.mul_comm]; exact hi)

/-- A memory as a function. -/
theorem exists_mem [Inhabited α] (l : List α) : ∃ m : Nat → α, ∀ i : Nat, i < l.length → l[i]? = some (m i) := by
  refine ⟨fun i => l[i]?.getD default, ?_⟩
  intro i hi
  simp only [List.getElem?_eq_getElem hi, Option.getD_some]

/-- C141. An image that becomes one of at most one row is right; missing: two rows and more, for which it is false. -/
theorem c141_down_low_partial [Inhabited α] (junk : Nat → α) {img : GImage α} {w h : Nat} {f : Nat → Nat → α} {s : Rat} {S : Nat → α}
    (hi : img.Shows w h f) (hs : img.width ≤ img.stride)
    (hc : img.stride * img.height ≤ img.data.length) (hsz : img.stride * img.height ≤ 2147483647)
    (hw : w ≤ 2147483647) (hh : h ≤ 2147483647) (hs0 : 0 < s) (hs1 : s < 1) (h2 : (h : Rat) * s < 2)
    (hS : ∀ x : Nat, x < ⌊(w : Rat) * s⌋.toNat → store (bilinearAt (fun i j => conv (f i.toNat j.toNat)) (x / s) 0) = .ok (S x)) :
    ∃ d, ipScale conv store junk img s = .ok d ∧ d.Shows ⌊(w : Rat) * s⌋.toNat ⌊(h : Rat) * s⌋.toNat (fun x _ => S x) := by
  obtain ⟨m, hm⟩ := exists_mem img.data
  have ew := hi.width_eq
  have eh := hi.height_eq
  have h1 : ⌊(h : Rat) * s⌋ < 2 := by
    rw [Int.floor_lt]
    exact_mod_cast h2
  obtain ⟨-, -, wx⟩ := scaleSize hs0 (scaledInside_of_lt w hs1) (by have := floor_mul_le hs1 w; omega)
  obtain ⟨-, -, hx⟩ := scaleSize hs0 (scaledInside_of_lt h hs1) (by have := floor_mul_le hs1 h; omega)
  obtain ⟨d, e, a, b, c, -, p, -⟩ := c141_down (conv := conv) (store := store) (m := m) (S := fun x _ => S x) junk hs hc hsz (by omega) (by omega)
    hs0 hs1 hm (by
      intro x y hx' hy'
      rw [ew] at hx' ⊢
      rw [eh] at hy'
      have y0 : y = 0 := by omega
      subst y0
      rw [← hS x hx']
      have k := wx x hx'
      rw [mul_one_div] at k
      have q := hx 0 (by omega)
      have hpos : 0 < h := by
        have : (0 : Rat) < (h : Rat) - 1 := lt_of_le_of_lt q.1 q.2
        have : (0 : Rat) < h := by linarith
        exact_mod_cast this
      obtain ⟨f0, f1⟩ := floor_inside k.1 k.2
      have hp : ∀ i : Nat, i < w → m i = f i 0 := by
        intro i hi'
        have := hi.pixel_eq i 0 hi' hpos
        unfold GImage.pixel at this
        rw [Nat.zero_mul, Nat.zero_add] at this
        rw [hm i (List.getElem?_eq_some_iff.mp this).1] at this
        exact Option.some.inj this
      congr 1
      unfold bilinearAt
      simp only [Nat.cast_zero, zero_div, Int.floor_zero, Int.fract_zero, Int.toNat_zero, Nat.zero_mul, Nat.zero_add]
      rw [hp _ (by omega), hp _ (by omega)]
      ring)
  exact ⟨d, e, by rw [a, ew], by rw [b, eh], fun x y hx' hy' => p x y (by rw [ew]; exact hx') (by rw [eh]; exact hy')⟩

theorem floor_half_even (n : Nat) : ⌊((2 * n : Nat) : Rat) * (1 / 2)⌋.toNat = n := by
  have : ((2 * n : Nat) : Rat) * (1 / 2) = ((n : Int) : Rat) := by
    push_cast
    ring
  rw [this, Int.floor_intCast, Int.toNat_natCast]

theorem floor_half (n : Nat) : ⌊(n : Rat) * (1 / 2)⌋.toNat = n / 2 := by
  have : ⌊(n : Rat) * (1 / 2)⌋ = ((n / 2 : Nat) : Int) := by
    rw [Int.floor_eq_iff]
    have h := Nat.div_add_mod n 2
    have hl : n % 2 < 2 := Nat.mod_lt _ (by decide)
    have h' : (2 : Rat) * ((n / 2 : Nat) : Rat) + ((n % 2 : Nat) : Rat) = n := by exact_mod_cast h
    have hl' : ((n % 2 : Nat) : Rat) < 2 := by exact_mod_cast hl
    have hg' : (0 : Rat) ≤ ((n % 2 : Nat) : Rat) := Nat.cast_nonneg _
    rw [Int.cast_natCast]
    constructor <;> linarith
  rw [this, Int.toNat_natCast]

/-- C141. Half the size, with an even number of columns and no gap between the rows: the upper half of the image with every other column. -/
theorem c141_half_top [Inhabited α] (hst : ∀ a, store (conv a) = .ok a) (junk : Nat → α) {img : GImage α} {w h : Nat} {f : Nat → Nat → α}
    (hi : img.Shows (2 * w) h f) (hs : img.stride = 2 * w) (hc : img.stride * img.height ≤ img.data.length)
    (hsz : img.stride * img.height ≤ 2147483647) (hw : 2 * w ≤ 2147483647) (hh : h ≤ 2147483647) :
    ∃ d, ipScale conv store junk img (1 / 2) = .ok d ∧ d.Shows w (h / 2) (fun x y => f (2 * x) y) := by
  obtain ⟨m, hm⟩ := exists_mem img.data
  have ew := hi.width_eq
  have eh := hi.height_eq
  obtain ⟨d, e, a, b, c, -, p, -⟩ := c141_down (conv := conv) (store := store) (m := m) (S := fun x y => f (2 * x) y) (s := 1 / 2) junk
    (by omega) hc hsz (by omega) (by omega) (by norm_num) (by norm_num) hm (by
      intro x y hx hy
      rw [ew, floor_half_even] at hx ⊢
      rw [eh, floor_half] at hy
      have ex : (x : Rat) / (1 / 2) = ((2 * x : Int) : Rat) := by
        push_cast
        ring
      have ey : (y : Rat) / (1 / 2) = ((2 * y : Int) : Rat) := by
        push_cast
        ring
      rw [ex, ey, c78_at_pixel, show ((2 * y : Int)).toNat = 2 * y by omega, show ((2 * x : Int)).toNat = 2 * x by omega, hst]
      have := hi.pixel_eq (2 * x) y (by omega) (by omega)
      unfold GImage.pixel at this
      rw [hs] at this
      rw [hm _ (List.getElem?_eq_some_iff.mp this).1] at this
      rw [← Option.some.inj this, show 2 * y * w + 2 * x = y * (2 * w) + 2 * x by ring])
  rw [ew, floor_half_even] at a p
  rw [eh, floor_half] at b p
  exact ⟨d, e, a, b, p⟩

/-- C141 is false for images of four rows and more: half the size of such an image, made in place, has the pixels of half the size made in
another image only where the rows `y` and `2 * y` agree. -/
theorem c141_half_false [Inhabited α] (hst : ∀ a, store (conv a) = .ok a) (junk junk' : Nat → α) {img dest : GImage α} {w h : Nat}
    {f : Nat → Nat → α} (hi : img.Shows (2 * w) h f) (hs : img.stride = 2 * w) (hc : img.stride * img.height ≤ img.data.length)
    (hsz : img.stride * img.height ≤ 2147483647) (hw : 2 * w ≤ 2147483647) (hh : h ≤ 2147483647) (hd : dest.Wf) {x y : Nat} (hx : x < w)
    (hy : y < h / 2) :
    ∃ d d', ipScale conv store junk img (1 / 2) = .ok d ∧ gScale conv store junk' dest img (1 / 2) = .ok d' ∧
      (d.pixel x y = d'.pixel x y ↔ f (2 * x) y = f (2 * x) (2 * y)) := by
  obtain ⟨d, e, hsh⟩ := c141_half_top hst junk hi hs hc hsz hw hh
  have hsz' : 2 * w * h ≤ 2147483647 := by
    rw [hs, hi.height_eq] at hsz
    exact hsz
  obtain ⟨d', e', -, hsh'⟩ := c79_scale_down (conv := conv) (store := store) (junk := junk') (s := 1 / 2) (S := fun x y => f (2 * x) (2 * y))
    hd hi (by omega) hh hsz' (by norm_num) (by norm_num) (by
      intro x y hx hy
      have ex : (x : Rat) / (1 / 2) = ((2 * x : Int) : Rat) := by
        push_cast
        ring
      have ey : (y : Rat) / (1 / 2) = ((2 * y : Int) : Rat) := by
        push_cast
        ring
      rw [ex, ey, c78_at_pixel, show ((2 * y : Int)).toNat = 2 * y by omega, show ((2 * x : Int)).toNat = 2 * x by omega, hst])
  rw [floor_half_even, floor_half] at hsh'
  refine ⟨d, d', e, e', ?_⟩
  rw [hsh.pixel_eq x y hx hy, hsh'.pixel_eq x y hx hy]
  exact Option.some_inj

/-- Some value of a pixel whose four places are in the memory. -/
theorem scalePixel_at [Inhabited α] {d : List α} {st : Nat} {xp yp : Rat} (hx0 : 0 ≤ xp) (hy0 : 0 ≤ yp) {n k : Nat}
    (hx1 : xp < (n : Rat) - 1) (hy1 : yp < (k : Rat) - 1) (hn : n ≤ 2147483647) (hk : k ≤ 2147483647)
    (hl : (⌊yp⌋.toNat + 1) * st + (⌊xp⌋.toNat + 1) < d.length) :
    scalePixel conv store d st xp yp = store (bilinearAt (fun i j => conv (d[j.toNat * st + i.toNat]?.getD default)) xp yp) := by
  refine scalePixel_mem (m := fun i => d[i]?.getD default) hx0 hy0 hx1 hy1 hn hk ?_
  intro i j hi hj
  have : j * st ≤ (⌊yp⌋.toNat + 1) * st := Nat.mul_le_mul_right _ (by omega)
  have hlt : j * st + i < d.length := by omega
  simp only [List.getElem?_eq_getElem hlt, Option.getD_some]

/-- The sizes for a scale of one. -/
theorem truncInt_one {n : Nat} (hn : n ≤ 2147483647) : truncInt ((n : Rat) * 1) = .ok (n : Int) := by
  have h0 : (0 : Rat) ≤ (n : Rat) * 1 := by
    rw [mul_one]
    exact Nat.cast_nonneg n
  unfold truncInt
  rw [ratTrunc_nonneg h0, mul_one, Int.floor_natCast, if_pos (by unfold InI32; omega)]

theorem ipResize_none {junk : Nat → α} {img : GImage α} (hst : img.stride = img.width) :
    ipResize junk img img.width img.height img.width = .ok img := by
  unfold ipResize
  rw [if_pos ⟨rfl, rfl, hst⟩]

/-- One pixel for a scale of one. -/
theorem same_body (hst : ∀ a, store (conv a) = .ok a) {d : List α} {w h x y : Nat} (hx : x < w) (hy : y < h) (hw : w ≤ 2147483646)
    (hh : h ≤ 2147483646) (hwh : w * h ≤ d.length) :
    ipScaleBody conv store 1 w y x d = if (y + 1) * w + (x + 1) < d.length then .ok d else .ub := by
  have hx0 : (0 : Rat) ≤ (x : Rat) * (1 / 1) := by positivity
  have hy0 : (0 : Rat) ≤ (y : Rat) * (1 / 1) := by positivity
  have ex : ((x : Rat) * (1 / 1)) = ((x : Int) : Rat) := by
    push_cast
    ring
  have ey : ((y : Rat) * (1 / 1)) = ((y : Int) : Rat) := by
    push_cast
    ring
  have hin : y * w + x < d.length := by
    have := Nat.mul_le_mul_right w hy
    rw [Nat.succ_mul, Nat.mul_comm h] at this
    omega
  unfold ipScaleBody
  by_cases hl : (y + 1) * w + (x + 1) < d.length
  · rw [if_pos hl]
    have : Inhabited α := ⟨d[y * w + x]⟩
    have bx : ((x : Int) : Rat) < ((w + 1 : Nat) : Rat) - 1 := by
      push_cast
      have : (x : Rat) < w := by exact_mod_cast hx
      linarith
    have by' : ((y : Int) : Rat) < ((h + 1 : Nat) : Rat) - 1 := by
      push_cast
      have : (y : Rat) < h := by exact_mod_cast hy
      linarith
    rw [ex, ey, scalePixel_at (by rw [← ex]; exact hx0) (by rw [← ey]; exact hy0) bx by' (by omega) (by omega)
      (by rw [Int.floor_intCast, Int.floor_intCast, Int.toNat_natCast, Int.toNat_natCast]; exact hl), c78_at_pixel, hst]
    simp only [Res.ok_bind, Int.toNat_natCast]
    rw [writeAt_ok _ hin, List.getElem?_eq_getElem hin, Option.getD_some, List.set_getElem_self]
  · rw [if_neg hl]
    have tx : truncInt ((x : Rat) * (1 / 1)) = .ok (x : Int) := by
      rw [one_div_one]
      exact truncInt_one (by omega)
    have ty : truncInt ((y : Rat) * (1 / 1)) = .ok (y : Int) := by
      rw [one_div_one]
      exact truncInt_one (by omega)
    unfold scalePixel
    rw [tx, ty]
    simp only [Res.ok_bind]
    have e : ((y : Int) + 1) * (w : Int) + ((x : Int) + 1) = (((y + 1) * w + (x + 1) : Nat) : Int) := by
      push_cast
      rfl
    rw [readFour_ub (Or.inr (by
      rw [e, readI, if_pos (by omega), Int.toNat_natCast]
      exact readAt_beyond (by omega)))]
    rfl

/-- C141 for a scale of one and no gap between the rows: the image is unchanged if there is memory for one row and one sample more than it
has, and memory behind it is read otherwise. -/
theorem c141_same (hst : ∀ a, store (conv a) = .ok a) (junk : Nat → α) {img : GImage α} (hs : img.stride = img.width)
    (hw0 : 0 < img.width) (hh0 : 0 < img.height) (hw : img.width ≤ 2147483646) (hh : img.height ≤ 2147483646)
    (hc : img.width * img.height ≤ img.data.length) :
    ipScale conv store junk img 1 = if img.width * (img.height + 1) < img.data.length then .ok img else .ub := by
  unfold ipScale
  rw [truncInt_one (by omega), truncInt_one (by omega)]
  simp only [Res.ok_bind]
  rw [if_neg (by omega), Int.toNat_natCast, Int.toNat_natCast, ipResize_none hs]
  simp only [Res.ok_bind]
  rw [hs]
  have mono : ∀ y x, y < img.height → x < img.width → (y + 1) * img.width + (x + 1) ≤ img.width * (img.height + 1) := by
    intro y x hy hx
    have h1 : (y + 1) * img.width ≤ img.height * img.width := Nat.mul_le_mul_right img.width hy
    have h2 : img.width * (img.height + 1) = img.height * img.width + img.width := by ring
    omega
  by_cases hl : img.width * (img.height + 1) < img.data.length
  · rw [if_pos hl]
    obtain ⟨d, e, hd⟩ := forLoop_spec (n := img.height) (i0 := 0) (s := img.data)
      (body := fun y d => forLoop img.width (ipScaleBody conv store 1 img.width y) 0 d) (fun _ d => d = img.data) (Nat.zero_le _) rfl (by
        intro y d _ hy hd
        refine forLoop_spec (n := img.width) (i0 := 0) (s := d) (fun _ d => d = img.data) (Nat.zero_le _) hd ?_
        intro x d _ hx hd
        subst hd
        rw [same_body hst hx hy hw hh hc, if_pos (by have := mono y x hy hx; omega)]
        exact ⟨_, rfl, rfl⟩)
    rw [e, hd]
    cases img
    simp only at hs
    subst hs
    rfl
  · rw [if_neg hl]
    have hrow : ∀ y d, y < img.height → d = img.data →
        forLoop img.width (ipScaleBody conv store 1 img.width y) 0 d = .ub ∨
        forLoop img.width (ipScaleBody conv store 1 img.width y) 0 d = .ok img.data := by
      intro y d hy hd
      by_cases hr : (y + 1) * img.width + img.width < img.data.length
      · obtain ⟨d', e, hd'⟩ := forLoop_spec (n := img.width) (i0 := 0) (s := d) (body := ipScaleBody conv store 1 img.width y)
          (fun _ d => d = img.data) (Nat.zero_le _) hd (by
            intro x d _ hx hd
            subst hd
            rw [same_body hst hx hy hw hh hc, if_pos (by omega)]
            exact ⟨_, rfl, rfl⟩)
        right
        rw [e, hd']
      · left
        refine forLoop_reaches_ub (fun d => d = img.data) (j := img.width - 1) (by omega) ?_ ?_ _ 0 d rfl (by omega) hd
        · intro x d hx hd
          subst hd
          rw [same_body hst (by omega) hy hw hh hc]
          split
          · exact Or.inr ⟨_, rfl, rfl⟩
          · exact Or.inl rfl
        · intro d hd
          subst hd
          rw [same_body hst (by omega) hy hw hh hc, if_neg (by omega)]
    rw [forLoop_reaches_ub (fun d => d = img.data) (j := img.height - 1) (by omega) ?_ ?_ _ 0 img.data rfl (by omega) rfl]
    · rfl
    · intro y d hy hd
      rcases hrow y d (by omega) hd with e | e
      · exact Or.inl e
      · exact Or.inr ⟨_, e, rfl⟩
    · intro d hd
      rcases hrow (img.height - 1) d (by omega) hd with e | e
      · exact e
      · exfalso
        subst hd
        have hu : forLoop img.width (ipScaleBody conv store 1 img.width (img.height - 1)) 0 img.data = .ub := by
          refine forLoop_reaches_ub (fun d => d = img.data) (j := img.width - 1) (by omega) ?_ ?_ _ 0 _ rfl (by omega) rfl
          · intro x d hx hd
            subst hd
            rw [same_body hst (by omega) (by omega) hw hh hc]
            split
            · exact Or.inr ⟨_, rfl, rfl⟩
            · exact Or.inl rfl
          · intro d hd
            subst hd
            rw [same_body hst (by omega) (by omega) hw hh hc, if_neg ?_]
            have h2 : img.width * (img.height + 1) = img.height * img.width + img.width := by ring
            rw [Nat.sub_add_cancel hh0, Nat.sub_add_cancel hw0]
            omega
        rw [hu] at e
        cases e

end

theorem truncInt_double {n : Nat} (hn : 2 * n ≤ 2147483647) : truncInt ((n : Rat) * 2) = .ok ((2 * n : Nat) : Int) := by
  have h0 : (0 : Rat) ≤ (n : Rat) * 2 := by positivity
  have e : (n : Rat) * 2 = ((2 * n : Nat) : Rat) := by
    push_cast
    ring
  unfold truncInt
  rw [ratTrunc_nonneg h0, e, Int.floor_natCast, if_pos (by unfold InI32; omega)]

theorem half_pos (x : Nat) {w : Nat} (hx : x < 2 * w) : 0 ≤ (x : Rat) * (1 / 2) ∧ (x : Rat) * (1 / 2) < ((w + 1 : Nat) : Rat) - 1 ∧
    ⌊(x : Rat) * (1 / 2)⌋.toNat + 1 ≤ w := by
  have h : (x : Rat) < 2 * (w : Rat) := by exact_mod_cast hx
  refine ⟨by positivity, ?_, ?_⟩
  · push_cast
    linarith
  · rw [floor_half]
    omega

/-- One pixel of an image that is doubled. -/
theorem double_body {w h x y : Nat} {d : List Rat} (hx : x < 2 * w) (hy : y < 2 * h) (hwh : 2 * w * (2 * h) ≤ d.length)
    (hw : 2 * w ≤ 2147483646) (hh : 2 * h ≤ 2147483646) :
    ipScaleBody id .ok 2 (2 * w) y x d = .ok (d.set (y * (2 * w) + x)
      (bilinearAt (fun i j => d[j.toNat * (2 * w) + i.toNat]?.getD default) (x * (1 / 2)) (y * (1 / 2)))) := by
  obtain ⟨x0, x1, x2⟩ := half_pos x hx
  obtain ⟨y0, y1, y2⟩ := half_pos y hy
  unfold ipScaleBody
  have hlen : (⌊(y : Rat) * (1 / 2)⌋.toNat + 1) * (2 * w) + (⌊(x : Rat) * (1 / 2)⌋.toNat + 1) < d.length := by
    have h1 : (⌊(y : Rat) * (1 / 2)⌋.toNat + 1) * (2 * w) ≤ h * (2 * w) := Nat.mul_le_mul_right _ y2
    have h2 : 2 * w * (2 * h) = h * (2 * w) + h * (2 * w) := by ring
    have h3 : 1 * (2 * w) ≤ h * (2 * w) := Nat.mul_le_mul_right _ (by omega)
    omega
  rw [scalePixel_at x0 y0 x1 y1 (by omega) (by omega) hlen, Res.ok_bind, writeAt_ok]
  · rfl
  · have h1 : (y + 1) * (2 * w) ≤ 2 * h * (2 * w) := Nat.mul_le_mul_right _ hy
    have h2 : 2 * w * (2 * h) = 2 * h * (2 * w) := by ring
    rw [Nat.succ_mul] at h1
    omega

/-- C141 is false for enlarging: doubling an image in place reads only its memory, but the third pixel is half way between the first two of
the image, where it should be the second, so that it is right only if the two are equal. -/
theorem c141_double_false (junk : Nat → Rat) {img : GImage Rat} {w h : Nat} {f : Nat → Nat → Rat} (hi : img.Shows w h f) (hw : 2 ≤ w)
    (hh : 1 ≤ h) (hsz : 2 * w * (2 * h) ≤ 2147483646) :
    ∃ d, ipScale id .ok junk img 2 = .ok d ∧ d.width = 2 * w ∧ d.height = 2 * h ∧ d.pixel 2 0 = some ((f 0 0 + f 1 0) / 2) ∧
      (d.pixel 2 0 = some (bilinearAt (fun i j => f i.toNat j.toNat) ((2 : Nat) / 2) ((0 : Nat) / 2)) ↔ f 0 0 = f 1 0) := by
  have ew := hi.width_eq
  have eh := hi.height_eq
  have bw : 2 * w ≤ 2147483646 := le_trans (by nlinarith) hsz
  have bh : 2 * h ≤ 2147483646 := le_trans (by nlinarith) hsz
  have p0 := hi.pixel_eq 0 0 (by omega) (by omega)
  have p1 := hi.pixel_eq 1 0 (by omega) (by omega)
  unfold GImage.pixel at p0 p1
  rw [Nat.zero_mul, Nat.zero_add] at p0 p1
  suffices hmain : ∃ d, ipScale id .ok junk img 2 = .ok d ∧ d.width = 2 * w ∧ d.height = 2 * h ∧
      d.pixel 2 0 = some ((f 0 0 + f 1 0) / 2) by
    obtain ⟨d, e1, e2, e3, e4⟩ := hmain
    refine ⟨d, e1, e2, e3, e4, ?_⟩
    have e5 : ((2 : Nat) : Rat) / 2 = ((1 : Int) : Rat) := by norm_num
    have e6 : ((0 : Nat) : Rat) / 2 = ((0 : Int) : Rat) := by norm_num
    rw [e4, e5, e6, c78_at_pixel, Option.some_inj]
    show (f 0 0 + f 1 0) / 2 = f 1 0 ↔ _
    constructor <;> intro h <;> linarith
  have hr : ipResize junk img (2 * w) (2 * h) (2 * w) = .ok ⟨2 * w, 2 * h, 2 * w,
      img.data ++ (List.range (2 * w * (2 * h) - img.data.length)).map junk⟩ := by
    unfold ipResize
    rw [if_neg (by omega)]
    simp only [Nat.lt_irrefl, if_false]
    rw [if_pos (by omega)]
  unfold ipScale
  rw [ew, eh, truncInt_double (by omega), truncInt_double (by omega)]
  simp only [Res.ok_bind]
  rw [if_neg (by omega), Int.toNat_natCast, Int.toNat_natCast, hr]
  simp only [Res.ok_bind]
  generalize hD : img.data ++ (List.range (2 * w * (2 * h) - img.data.length)).map junk = D
  have hlen : 2 * w * (2 * h) ≤ D.length := by
    rw [← hD]
    simp only [List.length_append, List.length_map, List.length_range]
    omega
  have q0 : D[0]? = some (f 0 0) := by
    rw [← hD, List.getElem?_append_left (List.getElem?_eq_some_iff.mp p0).1]
    exact p0
  have q1 : D[1]? = some (f 1 0) := by
    rw [← hD, List.getElem?_append_left (List.getElem?_eq_some_iff.mp p1).1]
    exact p1
  obtain ⟨d, e, hP⟩ := forLoop_spec (n := 2 * h) (i0 := 0) (s := D)
    (body := fun y d => forLoop (2 * w) (ipScaleBody id .ok 2 (2 * w) y) 0 d)
    (fun y d => d.length = D.length ∧ (y = 0 → d = D) ∧ (0 < y → d[2]? = some ((f 0 0 + f 1 0) / 2))) (Nat.zero_le _)
    ⟨rfl, fun _ => rfl, fun h => absurd h (by decide)⟩ (by
      intro y d _ hy hP
      rcases Nat.eq_zero_or_pos y with h0 | h0
      · subst h0
        have := hP.2.1 rfl
        subst this
        obtain ⟨d', e', hl, hQ⟩ := forLoop_spec (n := 2 * w) (i0 := 0) (s := d) (body := ipScaleBody id .ok 2 (2 * w) 0)
          (fun x d' => d'.length = d.length ∧ d'[0]? = some (f 0 0) ∧ (x ≤ 1 → d'[1]? = some (f 1 0)) ∧
            (2 ≤ x → d'[1]? = some ((f 0 0 + f 1 0) / 2)) ∧ (3 ≤ x → d'[2]? = some ((f 0 0 + f 1 0) / 2))) (Nat.zero_le _)
          ⟨rfl, q0, fun _ => q1, fun h => absurd h (by decide), fun h => absurd h (by decide)⟩ (by
            intro x d' _ hx hQ
            obtain ⟨l, r0, r1, r2, r3⟩ := hQ
            have l2 : 2 < d'.length := by
              have : 2 * w * (2 * 1) ≤ 2 * w * (2 * h) := Nat.mul_le_mul_left _ (by omega)
              omega
            rw [double_body hx hy (by omega) bw bh]
            refine ⟨_, rfl, by rw [List.length_set]; exact l, ?_⟩
            rw [Nat.zero_mul, Nat.zero_add]
            have hc : x = 0 ∨ x = 1 ∨ x = 2 ∨ 3 ≤ x := by omega
            rcases hc with rfl | rfl | rfl | hx3
            · have ev : bilinearAt (fun i j => d'[j.toNat * (2 * w) + i.toNat]?.getD default) ((0 : Nat) * (1 / 2)) ((0 : Nat) * (1 / 2)) =
                  f 0 0 := by
                have e6 : ((0 : Nat) : Rat) * (1 / 2) = ((0 : Int) : Rat) := by norm_num
                rw [e6, c78_at_pixel]
                simp [r0]
              rw [ev]
              refine ⟨by rw [List.getElem?_set_self (by omega)], fun _ => ?_, by omega, by omega⟩
              rw [List.getElem?_set_ne (by decide)]
              exact r1 (by decide)
            · have ev : bilinearAt (fun i j => d'[j.toNat * (2 * w) + i.toNat]?.getD default) ((1 : Nat) * (1 / 2)) ((0 : Nat) * (1 / 2)) =
                  (f 0 0 + f 1 0) / 2 := by
                have e6 : ((0 : Nat) : Rat) * (1 / 2) = 0 := by norm_num
                have e7 : ((1 : Nat) : Rat) * (1 / 2) = 1 / 2 := by norm_num
                have f7 : ⌊(1 / 2 : Rat)⌋ = 0 := by norm_num
                have g7 : Int.fract (1 / 2 : Rat) = 1 / 2 := by
                  rw [← Int.self_sub_floor, f7]
                  norm_num
                unfold bilinearAt
                rw [e6, e7, f7, g7, Int.floor_zero, Int.fract_zero]
                have := r1 (by decide)
                simp [r0, this]
                ring
              rw [ev]
              refine ⟨by rw [List.getElem?_set_ne (by decide)]; exact r0, by omega, fun _ => ?_, by omega⟩
              rw [List.getElem?_set_self (by omega)]
            · have ev : bilinearAt (fun i j => d'[j.toNat * (2 * w) + i.toNat]?.getD default) ((2 : Nat) * (1 / 2)) ((0 : Nat) * (1 / 2)) =
                  (f 0 0 + f 1 0) / 2 := by
                have e6 : ((0 : Nat) : Rat) * (1 / 2) = ((0 : Int) : Rat) := by norm_num
                have e7 : ((2 : Nat) : Rat) * (1 / 2) = ((1 : Int) : Rat) := by norm_num
                rw [e6, e7, c78_at_pixel]
                have := r2 (by decide)
                simp [this]
              rw [ev]
              refine ⟨by rw [List.getElem?_set_ne (by decide)]; exact r0, by omega, fun _ => ?_, fun _ => ?_⟩
              · rw [List.getElem?_set_ne (by decide)]
                exact r2 (by decide)
              · rw [List.getElem?_set_self (by omega)]
            · refine ⟨by rw [List.getElem?_set_ne (by omega)]; exact r0, by omega, fun _ => ?_, fun _ => ?_⟩
              · rw [List.getElem?_set_ne (by omega)]
                exact r2 (by omega)
              · rw [List.getElem?_set_ne (by omega)]
                exact r3 hx3)
        exact ⟨d', e', hl, by omega, fun _ => hQ.2.2.2 (by omega)⟩
      · obtain ⟨d', e', hl, hQ⟩ := forLoop_spec (n := 2 * w) (i0 := 0) (s := d) (body := ipScaleBody id .ok 2 (2 * w) y)
          (fun _ d' => d'.length = D.length ∧ d'[2]? = some ((f 0 0 + f 1 0) / 2)) (Nat.zero_le _) ⟨hP.1, hP.2.2 h0⟩ (by
            intro x d' _ hx hQ
            rw [double_body hx hy (by omega) bw bh]
            refine ⟨_, rfl, by rw [List.length_set]; exact hQ.1, ?_⟩
            have : 1 * (2 * w) ≤ y * (2 * w) := Nat.mul_le_mul_right _ h0
            rw [List.getElem?_set_ne (by omega)]
            exact hQ.2)
        exact ⟨d', e', hl, by omega, fun _ => hQ⟩)
  rw [e]
  refine ⟨_, rfl, rfl, rfl, ?_⟩
  show d[0 * (2 * w) + 2]? = _
  rw [Nat.zero_mul, Nat.zero_add]
  exact hP.2.2 (by omega)

/-- Bytes are stored as they are read. -/
theorem storeClamped_byte (b : Byte) : storeClamped (byteVal b) = .ok b := by
  have h : ∀ n : Fin 256, storeClamped (byteVal (UInt8.ofNat n.val)) = .ok (UInt8.ofNat n.val) := by decide +kernel
  have := h ⟨b.toNat, b.toNat_lt⟩
  simpa using this

/-! ## Examples -/

/-- Half the size of an image of bytes with four rows. -/
example : ∃ d d', ipScale byteVal storeClamped (fun _ => 0) ⟨2, 4, 2, [1, 2, 3, 4, 5, 6, 7, 8]⟩ (1 / 2) = .ok d ∧
    gScale byteVal storeClamped (fun _ => 0) ⟨0, 0, 0, []⟩ ⟨2, 4, 2, [1, 2, 3, 4, 5, 6, 7, 8]⟩ (1 / 2) = .ok d' ∧
    (d.pixel 0 1 = d'.pixel 0 1 ↔ (3 : Byte) = 5) := by
  have hsh : (⟨2, 4, 2, [1, 2, 3, 4, 5, 6, 7, 8]⟩ : GImage Byte).Shows (2 * 1) 4 (fun x y => UInt8.ofNat (2 * y + x + 1)) :=
    ⟨rfl, rfl, by
      have h : ∀ (x : Fin 2) (y : Fin 4), (⟨2, 4, 2, [1, 2, 3, 4, 5, 6, 7, 8]⟩ : GImage Byte).pixel x.val y.val =
        some (UInt8.ofNat (2 * y.val + x.val + 1)) := by decide +kernel
      exact fun x y hx hy => h ⟨x, hx⟩ ⟨y, hy⟩⟩
  exact c141_half_false storeClamped_byte _ _ hsh rfl (by decide) (by decide) (by decide) (by decide) ⟨by decide, rfl⟩ (x := 0) (y := 1)
    (by decide) (by decide)

/-- An image of floats that is doubled. -/
example : ipScale id .ok (fun _ => 0) (⟨2, 1, 2, [1, 3]⟩ : GImage Rat) 2 = .ok ⟨4, 2, 4, [1, 2, 2, 2, 1 / 2, 7 / 8, 23 / 16, 101 / 64]⟩ := by
  decide +kernel

example : ipScale byteVal storeClamped (fun _ => 0) ⟨2, 1, 2, [7, 8]⟩ 1 = .ub ∧
    ipScale byteVal storeClamped (fun _ => 0) ⟨2, 1, 2, [7, 8, 0, 0, 0]⟩ 1 = .ok ⟨2, 1, 2, [7, 8, 0, 0, 0]⟩ := by
  rw [c141_same storeClamped_byte _ rfl (by decide) (by decide) (by decide) (by decide) (by decide),
    c141_same storeClamped_byte _ rfl (by decide) (by decide) (by decide) (by decide) (by decide)]
  exact ⟨rfl, rfl⟩

end Nx
