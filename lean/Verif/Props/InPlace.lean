import Verif.Model.InPlace
import Verif.Spec.Sample
import Verif.Lemmas.Sample

/-!
# C132: sampling an image into itself
-/

namespace Nx

/-- The first `k` samples are those at even places of `D`, the rest is `D`. -/
def Squeezed {α : Type} (D : List α) (k : Nat) (d : List α) : Prop :=
  d.length = D.length ∧ ∀ i, d[i]? = if i < k then D[2 * i]? else D[i]?

theorem squeezed_step {α : Type} {D d : List α} {k : Nat} (h : Squeezed D k d) (hk : 2 * k < D.length) {i j : Nat} (hi : i = 2 * k)
    (hj : j = k) : ∃ d', (do let v ← readAt d i; writeAt d j v : Res (List α)) = .ok d' ∧ Squeezed D (k + 1) d' := by
  subst hi; subst hj
  obtain ⟨hl, hd⟩ := h
  refine ⟨d.set j (d[2 * j]'(by omega)), ?_, by rw [List.length_set]; exact hl, ?_⟩
  · rw [readAt_ok (show 2 * j < d.length by omega), Res.ok_bind, writeAt_ok _ (by omega)]
  · intro i
    rw [List.getElem?_set]
    by_cases e : j = i
    · subst e
      rw [if_pos rfl, if_pos (by omega), if_pos (by omega), ← List.getElem?_eq_getElem, hd, if_neg (by omega)]
    · rw [if_neg e, hd]
      by_cases h1 : i < j
      · rw [if_pos h1, if_pos (by omega)]
      · rw [if_neg h1, if_neg (by omega)]

theorem ipResize_shrink {α : Type} {junk : Nat → α} {img : GImage α} (hc : img.stride * img.height ≤ img.data.length)
    (hs : img.width ≤ img.stride) (hsz : img.stride * img.height ≤ 2147483647) :
    ipResize junk img (img.width / 2) (img.height / 2) (img.width / 2) =
      .ok ⟨img.width / 2, img.height / 2, img.width / 2, img.data⟩ := by
  have hm : img.width / 2 * (img.height / 2) ≤ img.stride * img.height := Nat.mul_le_mul (by omega) (by omega)
  unfold ipResize
  split
  · rename_i h
    obtain ⟨h1, h2, h3⟩ := h
    cases img
    simp only at h1 h2 h3 ⊢
    rw [← h1, ← h2, h3, ← h1]
  · simp only [Nat.lt_irrefl, if_false]
    rw [if_pos (by omega), show img.width / 2 * (img.height / 2) - img.data.length = 0 by omega]
    simp

/-- C132. Downsampling an image into itself stays inside its memory, and the pixel in column `x` and row `y` becomes the sample at
place `2 * (y * (width / 2) + x)` of the memory; the memory after the pixels is unchanged. -/
theorem c132_down {α : Type} (junk : Nat → α) {img : GImage α} (hs : img.width ≤ img.stride)
    (hc : img.stride * img.height ≤ img.data.length) (hsz : img.stride * img.height ≤ 2147483647) :
    ∃ d, ipDownsample junk img = .ok d ∧ d.width = img.width / 2 ∧ d.height = img.height / 2 ∧ d.stride = img.width / 2 ∧
      d.data.length = img.data.length ∧
      (∀ x y, x < img.width / 2 → y < img.height / 2 → d.pixel x y = img.data[2 * (y * (img.width / 2) + x)]?) ∧
      ∀ i, img.width / 2 * (img.height / 2) ≤ i → d.data[i]? = img.data[i]? := by
  have hb : 2 * (img.width / 2 * (img.height / 2)) ≤ img.data.length := by
    have h1 : img.width / 2 * 2 * (img.height / 2) ≤ img.stride * img.height := Nat.mul_le_mul (by omega) (by omega)
    have h2 : img.width / 2 * 2 * (img.height / 2) = 2 * (img.width / 2 * (img.height / 2)) := by
      rw [Nat.mul_comm _ 2, Nat.mul_assoc]
    omega
  generalize hw : img.width / 2 = w at *
  generalize hh : img.height / 2 = h at *
  have e1 := ipResize_shrink (junk := junk) hc hs hsz
  rw [hw, hh] at e1
  obtain ⟨d, e2, hl, hd⟩ := forLoop_spec (σ := List α) (fun y d => Squeezed img.data (y * w) d) (n := h) (i0 := 0)
    (body := fun y d => forLoop w (ipDownBody w y) 0 d) (s := img.data) (Nat.zero_le _)
    ⟨rfl, fun i => by simp⟩ (by
      intro y s _ hy hq
      have hyw : (y + 1) * w ≤ w * h := by rw [Nat.mul_comm w]; exact Nat.mul_le_mul_right _ hy
      rw [Nat.succ_mul] at hyw
      obtain ⟨s', e, hq'⟩ := forLoop_spec (σ := List α) (fun x d => Squeezed img.data (y * w + x) d) (n := w) (i0 := 0)
        (body := ipDownBody w y) (s := s) (Nat.zero_le _) hq (by
          intro x s _ hx hq
          exact squeezed_step hq (by omega) (by rw [Nat.mul_assoc]; omega) rfl)
      exact ⟨s', e, by rw [Nat.succ_mul]; exact hq'⟩)
  refine ⟨⟨w, h, w, d⟩, ?_, rfl, rfl, rfl, hl, ?_, ?_⟩
  · unfold ipDownsample
    rw [hw, hh, e1, Res.ok_bind]
    show (forLoop h (fun y d => forLoop w (ipDownBody w y) 0 d) 0 img.data).bind _ = _
    rw [e2]
    rfl
  · intro x y hx hy
    have hyw : (y + 1) * w ≤ h * w := Nat.mul_le_mul_right _ hy
    rw [Nat.succ_mul] at hyw
    show d[y * w + x]? = _
    rw [hd, if_pos (by omega)]
  · intro i hi
    rw [Nat.mul_comm] at hi
    show d[i]? = _
    rw [hd, if_neg (by omega)]

example : ipDownsample (fun _ => 0) (⟨4, 4, 4, [1, 2, 3, 4, 5, 6, 7, 8, 9, 10, 11, 12, 13, 14, 15, 16]⟩ : GImage Byte) =
    .ok ⟨2, 2, 2, [1, 3, 5, 7, 5, 6, 7, 8, 9, 10, 11, 12, 13, 14, 15, 16]⟩ := by decide +kernel

/-- C132. For at most three rows the result is that of downsampling into another image. -/
theorem c132_down_low_partial {α : Type} (junk : Nat → α) {img : GImage α} {w h : Nat} {f : Nat → Nat → α} (hi : img.Shows w h f)
    (hs : img.width ≤ img.stride) (hc : img.stride * img.height ≤ img.data.length) (hsz : img.stride * img.height ≤ 2147483647)
    (hh : h ≤ 3) : ∃ d, ipDownsample junk img = .ok d ∧ d.Shows (w / 2) (h / 2) (fun x y => f (2 * x) (2 * y)) := by
  obtain ⟨d, e, h1, h2, _, _, h3, _⟩ := c132_down junk hs hc hsz
  have hw := hi.width_eq
  have hhe := hi.height_eq
  refine ⟨d, e, by rw [h1, hw], by rw [h2, hhe], ?_⟩
  intro x y hx hy
  have hy0 : y = 0 := by omega
  subst hy0
  rw [h3 x 0 (by rw [hw]; exact hx) (by rw [hhe]; exact hy)]
  have := hi.pixel_eq (2 * x) 0 (by omega) (by omega)
  unfold GImage.pixel at this
  rw [Nat.zero_mul, Nat.zero_add] at this ⊢
  rw [this]

example : (⟨4, 2, 4, [1, 2, 3, 4, 5, 6, 7, 8]⟩ : GImage Byte).Shows 4 2 (fun x y => UInt8.ofNat (4 * y + x + 1)) :=
  ⟨rfl, rfl, by
    have h : ∀ (x : Fin 4) (y : Fin 2), (⟨4, 2, 4, [1, 2, 3, 4, 5, 6, 7, 8]⟩ : GImage Byte).pixel x.val y.val =
      some (UInt8.ofNat (4 * y.val + x.val + 1)) := by decide +kernel
    exact fun x y hx hy => h ⟨x, hx⟩ ⟨y, hy⟩⟩

/-- C132. With an even number of columns and no gap between the rows the result is the upper half of the image with every other
column. -/
theorem c132_down_top {α : Type} (junk : Nat → α) {img : GImage α} {w h : Nat} {f : Nat → Nat → α} (hi : img.Shows (2 * w) h f)
    (hs : img.stride = 2 * w) (hc : img.stride * img.height ≤ img.data.length) (hsz : img.stride * img.height ≤ 2147483647) :
    ∃ d, ipDownsample junk img = .ok d ∧ d.Shows w (h / 2) (fun x y => f (2 * x) y) := by
  have hw := hi.width_eq
  have hhe := hi.height_eq
  obtain ⟨d, e, h1, h2, _, _, h3, _⟩ := c132_down junk (by omega) hc hsz
  have hw2 : img.width / 2 = w := by omega
  refine ⟨d, e, by rw [h1, hw2], by rw [h2, hhe], ?_⟩
  intro x y hx hy
  rw [h3 x y (by omega) (by omega), hw2]
  have := hi.pixel_eq (2 * x) y (by omega) (by omega)
  unfold GImage.pixel at this
  rw [hs] at this
  rw [← this]
  congr 1
  rw [Nat.mul_add, ← Nat.mul_assoc, ← Nat.mul_assoc, Nat.mul_comm 2 y]

/-- C132 is false for downsampling: such an image with four rows or more gets the pixels it should have only when each row `y` below
half the height has, in the even columns, the pixels of row `2 * y`. -/
theorem c132_down_right_iff {α : Type} (junk : Nat → α) {img : GImage α} {w h : Nat} {f : Nat → Nat → α}
    (hi : img.Shows (2 * w) h f) (hs : img.stride = 2 * w) (hc : img.stride * img.height ≤ img.data.length)
    (hsz : img.stride * img.height ≤ 2147483647) :
    (∃ d, ipDownsample junk img = .ok d ∧ d.Shows w (h / 2) (fun x y => f (2 * x) (2 * y))) ↔
      ∀ x y, x < w → y < h / 2 → f (2 * x) y = f (2 * x) (2 * y) := by
  obtain ⟨d, e, hd⟩ := c132_down_top junk hi hs hc hsz
  constructor
  · rintro ⟨d', e', hd'⟩ x y hx hy
    rw [e] at e'
    cases e'
    have h1 := hd.pixel_eq x y hx hy
    rw [hd'.pixel_eq x y hx hy] at h1
    exact (Option.some.inj h1).symm
  · intro hf
    refine ⟨d, e, hd.width_eq, hd.height_eq, ?_⟩
    intro x y hx hy
    rw [hd.pixel_eq x y hx hy, hf x y hx hy]

/-- The images of the last theorem exist with rows that differ. -/
example : (⟨2, 4, 2, [1, 2, 3, 4, 5, 6, 7, 8]⟩ : GImage Byte).Shows 2 4 (fun x y => UInt8.ofNat (2 * y + x + 1)) ∧
    ¬ ∀ x y, x < 1 → y < 2 → UInt8.ofNat (2 * y + 2 * x + 1) = UInt8.ofNat (2 * (2 * y) + 2 * x + 1) :=
  ⟨⟨rfl, rfl, by
    have h : ∀ (x : Fin 2) (y : Fin 4), (⟨2, 4, 2, [1, 2, 3, 4, 5, 6, 7, 8]⟩ : GImage Byte).pixel x.val y.val =
      some (UInt8.ofNat (2 * y.val + x.val + 1)) := by decide +kernel
    exact fun x y hx hy => h ⟨x, hx⟩ ⟨y, hy⟩⟩, fun h => absurd (h 0 1 (by decide) (by decide)) (by decide)⟩

/-! ## Upsampling -/

/-- Never stops the program, and keeps the length of the memory. -/
def Steady {α : Type} (n : Nat) (r : Res (List α)) : Prop := r = .ub ∨ ∃ d, r = .ok d ∧ d.length = n

theorem steady_read {α : Type} {n : Nat} {d : List α} {i : Nat} {k : α → Res (List α)} (h : ∀ a, Steady n (k a)) :
    Steady n (readAt d i >>= k) := by
  unfold readAt
  split
  · exact h _
  · exact .inl rfl

theorem steady_write {α : Type} {n : Nat} {d : List α} {i : Nat} {v : α} {k : List α → Res (List α)} (hl : d.length = n)
    (h : ∀ d, d.length = n → Steady n (k d)) : Steady n (writeAt d i v >>= k) := by
  unfold writeAt
  split
  · exact h _ (by rw [List.length_set]; exact hl)
  · exact .inl rfl

theorem steady_write_last {α : Type} {n : Nat} {d : List α} {i : Nat} {v : α} (hl : d.length = n) : Steady n (writeAt d i v) := by
  unfold writeAt
  split
  · exact .inr ⟨_, rfl, by rw [List.length_set]; exact hl⟩
  · exact .inl rfl

theorem steady_readI {α : Type} {n : Nat} {d : List α} {i : Int} {k : α → Res (List α)} (h : ∀ a, Steady n (k a)) :
    Steady n (readI d i >>= k) := by
  unfold readI
  split
  · exact steady_read h
  · exact .inl rfl

theorem steady_writeI {α : Type} {n : Nat} {d : List α} {i : Int} {v : α} {k : List α → Res (List α)} (hl : d.length = n)
    (h : ∀ d, d.length = n → Steady n (k d)) : Steady n (writeI d i v >>= k) := by
  unfold writeI
  split
  · exact steady_write hl h
  · exact .inl rfl

theorem steady_writeI_last {α : Type} {n : Nat} {d : List α} {i : Int} {v : α} (hl : d.length = n) : Steady n (writeI d i v) := by
  unfold writeI
  split
  · exact steady_write_last hl
  · exact .inl rfl

theorem steady_bind {α : Type} {n : Nat} {r : Res (List α)} {k : List α → Res (List α)} (h : Steady n r)
    (hk : ∀ d, d.length = n → Steady n (k d)) : Steady n (r >>= k) := by
  rcases h with rfl | ⟨d, rfl, hl⟩
  · exact .inl rfl
  · exact hk d hl

theorem steady_loop {α : Type} {n m : Nat} {body : Nat → List α → Res (List α)} (hb : ∀ i d, d.length = n → Steady n (body i d)) :
    ∀ (k i : Nat) (d : List α), m - i = k → d.length = n → Steady n (forLoop m body i d) := by
  intro k
  induction k with
  | zero => intro i d hk hl; rw [forLoop, if_neg (by omega)]; exact .inr ⟨d, rfl, hl⟩
  | succ k ih =>
    intro i d hk hl
    rw [forLoop, if_pos (by omega)]
    exact steady_bind (hb i d hl) (fun d hd => ih (i + 1) d (by omega) hd)

theorem ipUpBody_steady {α : Type} {avg2 : α → α → α} {avg4 : α → α → α → α → α} {st y x n : Nat} {d : List α} (hl : d.length = n) :
    Steady n (ipUpBody avg2 avg4 st y x d) := by
  unfold ipUpBody
  exact steady_read fun _ => steady_write hl fun _ hl => steady_read fun _ => steady_read fun _ => steady_write hl fun _ hl =>
    steady_read fun _ => steady_read fun _ => steady_write hl fun _ hl => steady_read fun _ => steady_read fun _ =>
    steady_read fun _ => steady_read fun _ => steady_write_last hl

theorem ipUpRow_steady {α : Type} {avg2 : α → α → α} {avg4 : α → α → α → α → α} {w st y n : Nat} {d : List α} (hl : d.length = n) :
    Steady n (ipUpRow avg2 avg4 w st y d) := by
  unfold ipUpRow
  exact steady_bind (steady_loop (fun _ _ => ipUpBody_steady) _ _ _ rfl hl) fun _ hl => steady_readI fun _ =>
    steady_writeI hl fun _ hl => steady_readI fun _ => steady_writeI hl fun _ hl => steady_readI fun _ => steady_readI fun _ =>
    steady_writeI hl fun _ hl => steady_readI fun _ => steady_readI fun _ => steady_writeI_last hl

theorem ipLastBody_steady {α : Type} {avg2 : α → α → α} {h st x n : Nat} {d : List α} (hl : d.length = n) :
    Steady n (ipLastBody avg2 h st x d) := by
  unfold ipLastBody
  exact steady_readI fun _ => steady_writeI hl fun _ hl => steady_readI fun _ => steady_readI fun _ => steady_writeI hl fun _ hl =>
    steady_readI fun _ => steady_writeI hl fun _ hl => steady_readI fun _ => steady_readI fun _ => steady_writeI_last hl

/-- The last write of the last row is outside the memory. -/
theorem ipUpLast_ub {α : Type} {avg2 : α → α → α} {w h st : Nat} {d : List α}
    (hout : (d.length : Int) ≤ 2 * ((h : Int) - 1) * st + st + (2 * (w : Int) - 1)) : ipUpLast avg2 w h st d = .ub := by
  have hw : ∀ (d' : List α) v, d'.length = d.length → writeI d' (2 * ((h : Int) - 1) * st + st + (2 * (w : Int) - 1)) v = .ub := by
    intro d' v hl
    unfold writeI writeAt
    rw [if_pos (by omega), if_neg (by omega)]
  have hr : ∀ {r : Res (List α)} {k : List α → Res (List α)}, Steady d.length r → (∀ d', d'.length = d.length → k d' = .ub) →
      (r >>= k) = .ub := by
    rintro r k (rfl | ⟨d', rfl, hl⟩) hk
    · rfl
    · exact hk d' hl
  have hrd : ∀ {d' : List α} {i : Int} {k : α → Res (List α)}, (∀ a, k a = .ub) → (readI d' i >>= k) = .ub := by
    intro d' i k hk
    unfold readI readAt
    split
    · split
      · exact hk _
      · rfl
    · rfl
  unfold ipUpLast
  refine hr (steady_loop (fun _ _ => ipLastBody_steady) _ _ _ rfl rfl) fun _ hl => hrd fun _ => hr (steady_writeI_last hl) fun _ hl =>
    hrd fun _ => hr (steady_writeI_last hl) fun _ hl => hrd fun _ => hr (steady_writeI_last hl) fun _ hl => hrd fun _ => hw _ _ hl

/-- C132 is false for upsampling: an image with columns, whose memory was never more than twice what the result needs, is written
outside its memory. -/
theorem c132_up_outside {α : Type} (junk : Nat → α) (avg2 : α → α → α) (avg4 : α → α → α → α → α) {img : GImage α}
    (hw : 0 < img.width) (hc : img.data.length ≤ 2 * (2 * img.width * (2 * img.height))) :
    ipUpsample junk avg2 avg4 img = .ub := by
  unfold ipUpsample
  split
  rotate_left
  · rfl
  unfold ipResize
  rw [if_neg (by omega)]
  simp only [Nat.lt_irrefl, if_false]
  split
  rotate_left
  · rfl
  rw [Res.ok_bind]
  generalize hD : img.data ++ (List.range (2 * img.width * (2 * img.height) - img.data.length)).map junk = D
  have hl : D.length ≤ 2 * (2 * img.width * (2 * img.height)) := by
    rw [← hD]
    simp only [List.length_append, List.length_map, List.length_range]
    omega
  have hs := steady_loop (n := D.length) (m := 2 * img.height - 1) (body := ipUpRow avg2 avg4 (2 * img.width) (2 * img.width))
    (fun _ _ => ipUpRow_steady) _ 0 D rfl rfl
  show (forLoop (2 * img.height - 1) (ipUpRow avg2 avg4 (2 * img.width) (2 * img.width)) 0 D).bind _ = _
  rcases hs with e | ⟨d, e, hd⟩
  · rw [e]; rfl
  · rw [e]
    show (ipUpLast avg2 (2 * img.width) (2 * img.height) (2 * img.width) d).bind _ = _
    rw [ipUpLast_ub]
    · rfl
    · rw [hd]
      have h1 : (D.length : Int) ≤ 2 * (2 * img.width * (2 * img.height)) := by exact_mod_cast hl
      have h2 : 2 * (((2 * img.height : Nat) : Int) - 1) * ((2 * img.width : Nat) : Int) =
          2 * (2 * img.width * (2 * img.height)) - 4 * img.width := by
        push_cast
        rw [Int.mul_sub, Int.sub_mul]
        have : (2 : Int) * (2 * img.height) * (2 * img.width) = 2 * (2 * img.width * (2 * img.height)) := by
          rw [Int.mul_assoc, Int.mul_comm (2 * (img.height : Int))]
        omega
      rw [h2]
      omega

example : (⟨2, 1, 2, [1, 2]⟩ : GImage Byte).data.length ≤ 2 * (2 * 2 * (2 * 1)) := by decide

end Nx
