import Verif.Lemmas.Sample

/-!
# Lemmas about upsampling
-/

namespace Nx

/-- The four writes of one source pixel. -/
def write4 {α : Type} (d : List α) (st y x : Nat) (v00 v10 v01 v11 : α) : Res (List α) := do
  let d ← writeAt d (2 * y * st + 2 * x) v00
  let d ← writeAt d (2 * y * st + (2 * x + 1)) v10
  let d ← writeAt d (2 * y * st + st + 2 * x) v01
  writeAt d (2 * y * st + st + (2 * x + 1)) v11

theorem write4_spec {α : Type} {d : List α} {st H x y : Nat} (F : Nat → Nat → α) (hl : d.length = st * H)
    (hx : 2 * x + 1 < st) (hy : 2 * y + 1 < H) :
    ∃ d', write4 d st y x (F (2 * x) (2 * y)) (F (2 * x + 1) (2 * y)) (F (2 * x) (2 * y + 1))
        (F (2 * x + 1) (2 * y + 1)) = .ok d' ∧ d'.length = st * H ∧
      ∀ X Y, X < st → d'[Y * st + X]? = if X / 2 = x ∧ Y / 2 = y then some (F X Y) else d[Y * st + X]? := by
  have hrow : 2 * y * st + st = (2 * y + 1) * st := (Nat.succ_mul (2 * y) st).symm
  unfold write4
  rw [hrow, writeAt_ok _ (by rw [hl]; exact pixIdx_lt (by omega) (by omega))]
  simp only [Res.ok_bind]
  rw [writeAt_ok _ (by rw [List.length_set, hl]; exact pixIdx_lt (by omega) (by omega))]
  simp only [Res.ok_bind]
  rw [writeAt_ok _ (by simp only [List.length_set, hl]; exact pixIdx_lt (by omega) (by omega))]
  simp only [Res.ok_bind]
  rw [writeAt_ok _ (by simp only [List.length_set, hl]; exact pixIdx_lt (by omega) (by omega))]
  refine ⟨_, rfl, by simp only [List.length_set, hl], ?_⟩
  intro X Y hX
  rw [pix_set (H := H) (by simp only [List.length_set, hl]) (by omega) (by omega) hX,
    pix_set (H := H) (by simp only [List.length_set, hl]) (by omega) (by omega) hX,
    pix_set (H := H) (by simp only [List.length_set, hl]) (by omega) (by omega) hX,
    pix_set (H := H) hl (by omega) (by omega) hX]
  by_cases h4 : 2 * x + 1 = X ∧ 2 * y + 1 = Y
  · rw [if_pos h4, if_pos (by omega), h4.1, h4.2]
  rw [if_neg h4]
  by_cases h3 : 2 * x = X ∧ 2 * y + 1 = Y
  · rw [if_pos h3, if_pos (by omega), h3.1, h3.2]
  rw [if_neg h3]
  by_cases h2 : 2 * x + 1 = X ∧ 2 * y = Y
  · rw [if_pos h2, if_pos (by omega), h2.1, h2.2]
  rw [if_neg h2]
  by_cases h1 : 2 * x = X ∧ 2 * y = Y
  · rw [if_pos h1, if_pos (by omega), h1.1, h1.2]
  rw [if_neg h1, if_neg (by omega)]

/-- The destination pixels of source rows before `y` and of row `y` before column `x` are `F`. -/
def UpFilled {α : Type} (st H : Nat) (F : Nat → Nat → α) (y x : Nat) (d : List α) : Prop :=
  d.length = st * H ∧ ∀ X Y, X < st → (Y / 2 < y ∨ (Y / 2 = y ∧ X / 2 < x)) → d[Y * st + X]? = some (F X Y)

theorem UpFilled.step {α : Type} {st H : Nat} {F : Nat → Nat → α} {y x : Nat} {d : List α} (h : UpFilled st H F y x d)
    (hx : 2 * x + 1 < st) (hy : 2 * y + 1 < H) {v00 v10 v01 v11 : α} (e00 : v00 = F (2 * x) (2 * y))
    (e10 : v10 = F (2 * x + 1) (2 * y)) (e01 : v01 = F (2 * x) (2 * y + 1)) (e11 : v11 = F (2 * x + 1) (2 * y + 1)) :
    ∃ d', write4 d st y x v00 v10 v01 v11 = .ok d' ∧ UpFilled st H F y (x + 1) d' := by
  subst e00 e10 e01 e11
  obtain ⟨d', e, hl, hp⟩ := write4_spec F h.1 hx hy
  refine ⟨d', e, hl, ?_⟩
  intro X Y hX hc
  rw [hp X Y hX]
  by_cases hxy : X / 2 = x ∧ Y / 2 = y
  · rw [if_pos hxy]
  · rw [if_neg hxy]
    apply h.2 X Y hX
    omega

theorem UpFilled.next {α : Type} {st H w : Nat} {F : Nat → Nat → α} {y : Nat} {d : List α} (h : UpFilled st H F y w d)
    (hst : st = 2 * w) : UpFilled st H F (y + 1) 0 d := by
  refine ⟨h.1, ?_⟩
  intro X Y hX hc
  apply h.2 X Y hX
  omega

section
variable {α : Type} {avg2 : α → α → α} {avg4 : α → α → α → α → α} {src dest : GImage α} {w h : Nat}
  {f : Nat → Nat → α}

/-- The interpolated image. -/
def upF (avg2 : α → α → α) (avg4 : α → α → α → α → α) (f : Nat → Nat → α) (w h X Y : Nat) : α :=
  interp avg2 avg4 f (X / 2) (upper X w) (Y / 2) (upper Y h)

theorem half_even (x : Nat) : 2 * x / 2 = x := by omega
theorem half_odd (x : Nat) : (2 * x + 1) / 2 = x := by omega
theorem upper_even {x n : Nat} (h : x < n) : upper (2 * x) n = x := by unfold upper; omega
theorem upper_odd {x n : Nat} (h : x + 1 < n) : upper (2 * x + 1) n = x + 1 := by unfold upper; omega
theorem upper_last {x n : Nat} (h : x + 1 = n) : upper (2 * x + 1) n = x := by unfold upper; omega

theorem upF_00 {x y : Nat} (hx : x < w) (hy : y < h) : upF avg2 avg4 f w h (2 * x) (2 * y) = f x y := by
  unfold upF
  rw [half_even, half_even, upper_even hx, upper_even hy, interp, if_pos rfl, if_pos rfl]

theorem upF_10 {x y : Nat} (hx : x + 1 < w) (hy : y < h) :
    upF avg2 avg4 f w h (2 * x + 1) (2 * y) = avg2 (f x y) (f (x + 1) y) := by
  unfold upF
  rw [half_odd, half_even, upper_odd hx, upper_even hy, interp, if_neg (by omega), if_pos rfl]

theorem upF_10' {x y : Nat} (hx : x + 1 = w) (hy : y < h) : upF avg2 avg4 f w h (2 * x + 1) (2 * y) = f x y := by
  unfold upF
  rw [half_odd, half_even, upper_last hx, upper_even hy, interp, if_pos rfl, if_pos rfl]

theorem upF_01 {x y : Nat} (hx : x < w) (hy : y + 1 < h) :
    upF avg2 avg4 f w h (2 * x) (2 * y + 1) = avg2 (f x y) (f x (y + 1)) := by
  unfold upF
  rw [half_odd, half_even, upper_odd hy, upper_even hx, interp, if_pos rfl, if_neg (by omega)]

theorem upF_01' {x y : Nat} (hx : x < w) (hy : y + 1 = h) : upF avg2 avg4 f w h (2 * x) (2 * y + 1) = f x y := by
  unfold upF
  rw [half_odd, half_even, upper_last hy, upper_even hx, interp, if_pos rfl, if_pos rfl]

theorem upF_11 {x y : Nat} (hx : x + 1 < w) (hy : y + 1 < h) :
    upF avg2 avg4 f w h (2 * x + 1) (2 * y + 1) = avg4 (f x y) (f (x + 1) y) (f x (y + 1)) (f (x + 1) (y + 1)) := by
  unfold upF
  rw [half_odd, half_odd, upper_odd hx, upper_odd hy, interp, if_neg (by omega), if_neg (by omega)]

theorem upF_11x {x y : Nat} (hx : x + 1 = w) (hy : y + 1 < h) :
    upF avg2 avg4 f w h (2 * x + 1) (2 * y + 1) = avg2 (f x y) (f x (y + 1)) := by
  unfold upF
  rw [half_odd, half_odd, upper_last hx, upper_odd hy, interp, if_pos rfl, if_neg (by omega)]

theorem upF_11y {x y : Nat} (hx : x + 1 < w) (hy : y + 1 = h) :
    upF avg2 avg4 f w h (2 * x + 1) (2 * y + 1) = avg2 (f x y) (f (x + 1) y) := by
  unfold upF
  rw [half_odd, half_odd, upper_odd hx, upper_last hy, interp, if_neg (by omega), if_pos rfl]

theorem upF_11' {x y : Nat} (hx : x + 1 = w) (hy : y + 1 = h) :
    upF avg2 avg4 f w h (2 * x + 1) (2 * y + 1) = f x y := by
  unfold upF
  rw [half_odd, half_odd, upper_last hx, upper_last hy, interp, if_pos rfl, if_pos rfl]

theorem row_next (y st x : Nat) : y * st + st + x = (y + 1) * st + x := by rw [Nat.succ_mul]

theorem upBody_spec (hs : src.Shows w h f) (hst : dest.stride = 2 * w) {y x : Nat} {d : List α} (hx : x + 1 < w)
    (hy : y + 1 < h) (hU : UpFilled dest.stride (2 * h) (upF avg2 avg4 f w h) y x d) :
    ∃ d', upBody avg2 avg4 src dest y x d = .ok d' ∧
      UpFilled dest.stride (2 * h) (upF avg2 avg4 f w h) y (x + 1) d' := by
  obtain ⟨d', e, h'⟩ := hU.step (by omega) (by omega) (upF_00 (by omega) (by omega)).symm
    (upF_10 hx (by omega)).symm (upF_01 (by omega) hy).symm (upF_11 hx hy).symm
  refine ⟨d', ?_, h'⟩
  unfold upBody
  rw [hs.read (by omega) (by omega)]
  simp only [Res.ok_bind]
  rw [hs.read hx (by omega)]
  simp only [Res.ok_bind]
  rw [row_next, hs.read (by omega) hy]
  simp only [Res.ok_bind]
  rw [row_next, hs.read hx hy]
  simp only [Res.ok_bind]
  exact e

theorem upRow_spec (hs : src.Shows w h f) (hst : dest.stride = 2 * w) (hw : 0 < w) {y : Nat} {d : List α}
    (hy : y + 1 < h) (hU : UpFilled dest.stride (2 * h) (upF avg2 avg4 f w h) y 0 d) :
    ∃ d', upRow avg2 avg4 src dest y d = .ok d' ∧
      UpFilled dest.stride (2 * h) (upF avg2 avg4 f w h) (y + 1) 0 d' := by
  have ew := hs.width_eq
  obtain ⟨d1, e1, h1⟩ := forLoop_spec (n := src.width - 1) (body := upBody avg2 avg4 src dest y) (i0 := 0) (s := d)
    (fun x d => UpFilled dest.stride (2 * h) (upF avg2 avg4 f w h) y x d) (Nat.zero_le _) hU
    (fun x d _ hx hP => upBody_spec hs hst (by omega) hy hP)
  obtain ⟨d2, e2, h2⟩ := h1.step (by omega) (by omega) (upF_00 (by omega) (by omega)).symm
    (upF_10' (by omega) (by omega)).symm (upF_01 (by omega) hy).symm (upF_11x (by omega) hy).symm
  refine ⟨d2, ?_, ?_⟩
  · unfold upRow
    rw [e1]
    simp only [Res.ok_bind]
    rw [readI_nat (k := y * src.stride + (src.width - 1)) (by push_cast; omega), hs.read (by omega) (by omega)]
    simp only [Res.ok_bind]
    rw [readI_nat (k := (y + 1) * src.stride + (src.width - 1)) (by rw [← row_next]; push_cast; omega),
      hs.read (by omega) hy]
    simp only [Res.ok_bind]
    rw [writeI_nat (k := 2 * y * dest.stride + 2 * (src.width - 1)) (by push_cast; omega)]
    unfold write4 at e2
    rw [show (2 * (y : Int) * dest.stride + (2 * (src.width : Int) - 1)) =
      ((2 * y * dest.stride + (2 * (src.width - 1) + 1) : Nat) : Int) by push_cast; omega]
    rw [show (2 * (y : Int) * dest.stride + dest.stride + (2 * (src.width : Int) - 2)) =
      ((2 * y * dest.stride + dest.stride + 2 * (src.width - 1) : Nat) : Int) by push_cast; omega]
    rw [show (2 * (y : Int) * dest.stride + dest.stride + (2 * (src.width : Int) - 1)) =
      ((2 * y * dest.stride + dest.stride + (2 * (src.width - 1) + 1) : Nat) : Int) by push_cast; omega]
    simp only [writeI_nat rfl]
    exact e2
  · have : src.width - 1 + 1 = w := by omega
    rw [this] at h2
    exact h2.next hst

theorem upLastBody_spec (hs : src.Shows w h f) (hst : dest.stride = 2 * w) {x : Nat} {d : List α} (hx : x + 1 < w)
    (hh : 0 < h) (hU : UpFilled dest.stride (2 * h) (upF avg2 avg4 f w h) (h - 1) x d) :
    ∃ d', upLastBody avg2 src dest x d = .ok d' ∧
      UpFilled dest.stride (2 * h) (upF avg2 avg4 f w h) (h - 1) (x + 1) d' := by
  have eh := hs.height_eq
  obtain ⟨d', e, h'⟩ := hU.step (by omega) (by omega) (upF_00 (by omega) (by omega)).symm
    (upF_10 hx (by omega)).symm (upF_01' (by omega) (by omega)).symm (upF_11y hx (by omega)).symm
  refine ⟨d', ?_, h'⟩
  have e1 : ((src.height : Int) - 1) = ((h - 1 : Nat) : Int) := by omega
  unfold upLastBody
  rw [e1, readI_nat (k := (h - 1) * src.stride + x) (by push_cast; omega), hs.read (by omega) (by omega)]
  simp only [Res.ok_bind]
  rw [readI_nat (k := (h - 1) * src.stride + (x + 1)) (by push_cast; omega), hs.read (by omega) (by omega)]
  simp only [Res.ok_bind]
  unfold write4 at e
  rw [writeI_nat (k := 2 * (h - 1) * dest.stride + 2 * x) (by push_cast; omega)]
  rw [show (2 * ((h - 1 : Nat) : Int) * dest.stride + (2 * (x : Int) + 1)) =
    ((2 * (h - 1) * dest.stride + (2 * x + 1) : Nat) : Int) by push_cast; omega]
  rw [show (2 * ((h - 1 : Nat) : Int) * dest.stride + dest.stride + 2 * (x : Int)) =
    ((2 * (h - 1) * dest.stride + dest.stride + 2 * x : Nat) : Int) by push_cast; omega]
  rw [show (2 * ((h - 1 : Nat) : Int) * dest.stride + dest.stride + (2 * (x : Int) + 1)) =
    ((2 * (h - 1) * dest.stride + dest.stride + (2 * x + 1) : Nat) : Int) by push_cast; omega]
  simp only [writeI_nat rfl]
  exact e

theorem upLast_spec (hs : src.Shows w h f) (hst : dest.stride = 2 * w) (hw : 0 < w) (hh : 0 < h) {d : List α}
    (hU : UpFilled dest.stride (2 * h) (upF avg2 avg4 f w h) (h - 1) 0 d) :
    ∃ d', upLast avg2 src dest d = .ok d' ∧ UpFilled dest.stride (2 * h) (upF avg2 avg4 f w h) h 0 d' := by
  have ew := hs.width_eq
  have eh := hs.height_eq
  obtain ⟨d1, e1, h1⟩ := forLoop_spec (n := src.width - 1) (body := upLastBody avg2 src dest) (i0 := 0) (s := d)
    (fun x d => UpFilled dest.stride (2 * h) (upF avg2 avg4 f w h) (h - 1) x d) (Nat.zero_le _) hU
    (fun x d _ hx hP => upLastBody_spec hs hst (by omega) hh hP)
  obtain ⟨d2, e2, h2⟩ := h1.step (by omega) (by omega) (upF_00 (by omega) (by omega)).symm
    (upF_10' (by omega) (by omega)).symm (upF_01' (by omega) (by omega)).symm (upF_11' (by omega) (by omega)).symm
  refine ⟨d2, ?_, ?_⟩
  · have e0 : ((src.height : Int) - 1) = ((h - 1 : Nat) : Int) := by omega
    unfold upLast
    rw [e1]
    simp only [Res.ok_bind]
    rw [e0, readI_nat (k := (h - 1) * src.stride + (src.width - 1)) (by push_cast; omega),
      hs.read (by omega) (by omega)]
    simp only [Res.ok_bind]
    unfold write4 at e2
    rw [writeI_nat (k := 2 * (h - 1) * dest.stride + 2 * (src.width - 1)) (by push_cast; omega)]
    rw [show (2 * ((h - 1 : Nat) : Int) * dest.stride + (2 * (src.width : Int) - 1)) =
      ((2 * (h - 1) * dest.stride + (2 * (src.width - 1) + 1) : Nat) : Int) by push_cast; omega]
    rw [show (2 * ((h - 1 : Nat) : Int) * dest.stride + dest.stride + (2 * (src.width : Int) - 2)) =
      ((2 * (h - 1) * dest.stride + dest.stride + 2 * (src.width - 1) : Nat) : Int) by push_cast; omega]
    rw [show (2 * ((h - 1 : Nat) : Int) * dest.stride + dest.stride + (2 * (src.width : Int) - 1)) =
      ((2 * (h - 1) * dest.stride + dest.stride + (2 * (src.width - 1) + 1) : Nat) : Int) by push_cast; omega]
    simp only [writeI_nat rfl]
    exact e2
  · have e3 : src.width - 1 + 1 = w := by omega
    have e4 : h - 1 + 1 = h := by omega
    rw [e3] at h2
    have := h2.next hst
    rwa [e4] at this

theorem gUpsample_spec {junk : Nat → α} (hd : dest.Wf) (hs : src.Shows w h f) (hw : 0 < w) (hh : 0 < h)
    (hsz : 2 * w * (2 * h) ≤ 2147483647) :
    ∃ d, gUpsample junk avg2 avg4 dest src = .ok d ∧ d.Wf ∧ d.data.length ≤ 2147483647 ∧
      d.Shows (2 * w) (2 * h) (upF avg2 avg4 f w h) := by
  have ew := hs.width_eq
  have eh := hs.height_eq
  have h1 : 2 * w ≤ 2147483647 := Nat.le_trans (Nat.le_mul_of_pos_right _ (by omega)) hsz
  have h2 : 2 * h ≤ 2147483647 := Nat.le_trans (Nat.le_mul_of_pos_left _ (by omega)) hsz
  obtain ⟨d, ed, dw, dh, ds, dl⟩ := gResize_ok (junk := junk) (st := 2 * w) hd hsz (Nat.le_refl _)
  obtain ⟨r, er, hr⟩ := forLoop_spec (n := src.height - 1) (body := upRow avg2 avg4 src d) (i0 := 0) (s := d.data)
    (fun y r => UpFilled d.stride (2 * h) (upF avg2 avg4 f w h) y 0 r) (Nat.zero_le _)
    ⟨by rw [dl, ds], by intro X Y _ hc; omega⟩
    (fun y r _ hy hP => upRow_spec hs ds hw (by omega) hP)
  rw [eh] at hr
  obtain ⟨t, et, ht⟩ := upLast_spec hs ds hw hh hr
  refine ⟨{ d with data := t }, ?_, ⟨by simp only; omega, by simp only; rw [ht.1, dh]⟩, ?_, dw, dh, ?_⟩
  · unfold gUpsample
    rw [ew, eh, if_pos ⟨h1, h2⟩, ed]
    simp only [Res.ok_bind]
    rw [eh] at er
    rw [er]
    simp only [Res.ok_bind, et]
    rfl
  · rw [ht.1, ds]
    exact hsz
  · intro X Y hX hY
    exact ht.2 X Y (by omega) (Or.inl (by omega))

theorem gUpsample_empty {junk : Nat → α} (hd : dest.Wf) (hwf : src.Wf) (h0 : src.width = 0 ∨ src.height = 0) :
    gUpsample junk avg2 avg4 dest src = .ub := by
  unfold gUpsample
  by_cases hsm : ¬(2 * src.width ≤ 2147483647 ∧ 2 * src.height ≤ 2147483647)
  · rw [if_neg hsm]
  rw [if_pos (Classical.not_not.mp hsm)]
  have hz : 2 * src.width * (2 * src.height) = 0 := by
    rcases h0 with h | h
    · rw [h, Nat.mul_zero, Nat.zero_mul]
    · rw [h, Nat.mul_zero]
  obtain ⟨d, ed, dw, dh, ds, dl⟩ := gResize_ok (junk := junk) (st := 2 * src.width) hd
    (by rw [hz]; omega) (Nat.le_refl _)
  rw [ed]
  simp only [Res.ok_bind]
  by_cases hh : src.height = 0
  · rw [forLoop, if_neg (by omega)]
    simp only [Res.ok_bind]
    have : upLast avg2 src d d.data = .ub := by
      unfold upLast
      have hrd : ∀ (x : Int), x < src.width → readI src.data (((src.height : Int) - 1) * src.stride + x) = .ub := by
        intro x hx
        apply readI_neg
        have := hwf.stride_ge
        rw [hh]
        simp only [Int.natCast_zero, Int.zero_sub, Int.neg_mul, Int.one_mul]
        omega
      by_cases hw : 0 < src.width - 1
      · rw [forLoop_ub hw (by unfold upLastBody; rw [hrd _ (by omega)]; rfl)]
        rfl
      · rw [forLoop, if_neg hw]
        simp only [Res.ok_bind]
        rw [hrd _ (by omega)]
        rfl
    rw [this]
    rfl
  · have hw0 : src.width = 0 := by omega
    by_cases h1 : 0 < src.height - 1
    · rw [forLoop_ub h1]
      · rfl
      · unfold upRow
        rw [hw0, forLoop, if_neg (by omega)]
        simp only [Res.ok_bind]
        rw [readI_neg (by simp)]
        rfl
    · rw [forLoop, if_neg h1]
      simp only [Res.ok_bind]
      have : upLast avg2 src d d.data = .ub := by
        unfold upLast
        rw [hw0, forLoop, if_neg (by omega)]
        simp only [Res.ok_bind]
        rw [readI_neg (by have : src.height = 1 := by omega
                          rw [this]; simp)]
        rfl
      rw [this]
      rfl

end

end Nx
