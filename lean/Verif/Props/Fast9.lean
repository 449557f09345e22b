import Verif.Lemmas.Fast9
import Verif.Props.Brief
import Verif.Props.FastNonmax

/-! # C43, C44: FAST-9 detection is the segment test, the score its largest threshold -/

namespace Nx

/-- The 16 positions of the circle of radius 3, in order along the circle. -/
def circle16 : List (Int × Int) :=
  [(0, 3), (1, 3), (2, 2), (3, 1), (3, 0), (3, -1), (2, -2), (1, -3),
   (0, -3), (-1, -3), (-2, -2), (-3, -1), (-3, 0), (-3, 1), (-2, 2), (-1, 3)]

/-- It is a closed ring of distinct positions, neighbouring ones touch, at distance about 3. -/
example : circle16.Nodup ∧ circle16.length = 16 ∧
    (∀ o ∈ circle16, 8 ≤ o.1 * o.1 + o.2 * o.2 ∧ o.1 * o.1 + o.2 * o.2 ≤ 10) ∧
    (∀ o ∈ circle16.zip (circle16.tail ++ circle16.take 1),
      (o.1.1 - o.2.1).natAbs ≤ 1 ∧ (o.1.2 - o.2.2).natAbs ≤ 1) := by decide +kernel

/-- The pixel at position `k` of the circle around (x, y) exists and satisfies `p`. -/
def OnCircle (img : UcImage) (x y : Int) (k : Nat) (p : Int → Prop) : Prop :=
  ∃ o v, circle16[k]? = some o ∧ img.pixel (x + o.1) (y + o.2) = some v ∧ p (v.toNat : Int)

/-- The segment test: nine contiguous pixels of the circle are all brighter than the centre by
more than `b`, or all darker. -/
def FastCorner (img : UcImage) (b x y : Int) : Prop :=
  ∃ c, img.pixel x y = some c ∧ ∃ s, s < 16 ∧
    ((∀ k < 9, OnCircle img x y ((s + k) % 16) (fun v => (c.toNat : Int) + b < v)) ∨
     (∀ k < 9, OnCircle img x y ((s + k) % 16) (fun v => v < (c.toNat : Int) - b)))

/-- The position is at least three pixels away from the border. -/
def Inside (img : UcImage) (x y : Int) : Prop := 3 ≤ x ∧ x + 3 < img.width ∧ 3 ≤ y ∧ y + 3 < img.height

/-- The sizes fit: all index computations stay in the range of `int`. -/
def UcImage.Small (img : UcImage) : Prop :=
  img.stride * img.height ≤ 2147483647 ∧ 3 * img.stride + 3 ≤ 2147483647

theorem makeOffsets_ok {st : Nat} (hs : 3 * st + 3 ≤ 2147483647) :
    makeOffsets st offsetTable = .ok (circle16.map (fun o => o.1 + st * o.2)) := by
  have key : ∀ l : List (Int × Int), (∀ o ∈ l, -3 ≤ o.1 ∧ o.1 ≤ 3 ∧ -3 ≤ o.2 ∧ o.2 ≤ 3) →
      makeOffsets st l = .ok (l.map (fun o => o.1 + st * o.2)) := by
    intro l
    induction l with
    | nil => intro _; rfl
    | cons o l ih =>
      obtain ⟨dx, dy⟩ := o
      intro h
      have h1 := h (dx, dy) List.mem_cons_self
      have hlo : (st : Int) * (-3) ≤ st * dy := Int.mul_le_mul_of_nonneg_left h1.2.2.1 (by omega)
      have hhi : (st : Int) * dy ≤ st * 3 := Int.mul_le_mul_of_nonneg_left h1.2.2.2 (by omega)
      have hx1 := h1.1
      have hx2 := h1.2.1
      simp only at hx1 hx2
      rw [makeOffsets, if_pos (by unfold InI32; omega), ih (fun o ho => h o (List.mem_cons_of_mem _ ho))]
      rfl
  exact key _ (by decide +kernel)

section
variable {img : UcImage} {x y : Nat}

/-- The value on the circle. -/
def circleVal (img : UcImage) (x y : Int) (k : Nat) : Int :=
  match circle16[k]? with
  | none => 0
  | some o =>
    match img.pixel (x + o.1) (y + o.2) with
    | none => 0
    | some v => v.toNat

theorem pixelBase_ok (hsm : img.Small) (hi : Inside img x y) :
    pixelBase img.stride x y = .ok ((y : Int) * img.stride + x) := by
  unfold pixelBase
  have h1 : img.stride * y ≤ img.stride * img.height := Nat.mul_le_mul_left _ (by unfold Inside at hi; omega)
  have h2 : (y : Int) * img.stride = ((img.stride * y : Nat) : Int) := by rw [Nat.mul_comm]; simp
  have h3 := hsm.1
  rw [if_pos (by rw [h2]; unfold InI32; omega)]

theorem bounds_ok (hw : img.Wf) (hi : Inside img x y) {b : Int} (hb : 0 ≤ b) (hb2 : b ≤ 2147483392) :
    ∃ c, img.pixel x y = some c ∧ bounds img.data ((y : Int) * img.stride + x) b = .ok (c.toNat + b, c.toNat - b) := by
  unfold Inside at hi
  obtain ⟨c, c1, c2⟩ := UcImage.get_ok hw (x := x) (y := y) (by omega) (by omega)
  refine ⟨c, c1, ?_⟩
  unfold UcImage.get at c2
  have hlt : c.toNat < 256 := c.toNat_lt
  unfold bounds
  rw [Int.mul_comm (y : Int)]
  split at c2
  · rename_i h0
    rw [if_pos h0, c2]
    simp only [Res.ok_bind]
    rw [if_pos (by unfold InI32; omega)]
  · cases c2

theorem circleRead_ok (hw : img.Wf) (hi : Inside img x y) {k : Nat} (hk : k < 16) :
    circleRead img.data ((y : Int) * img.stride + x) (circle16.map (fun o => o.1 + img.stride * o.2)) k =
      .ok (circleVal img x y k) ∧
    (∀ p : Int → Prop, OnCircle img x y k p ↔ p (circleVal img x y k)) := by
  have hk' : k < circle16.length := hk
  have hmem : ∀ o ∈ circle16, -3 ≤ o.1 ∧ o.1 ≤ 3 ∧ -3 ≤ o.2 ∧ o.2 ≤ 3 := by decide +kernel
  have ho := hmem circle16[k] (List.getElem_mem hk')
  generalize hoe : circle16[k] = o at ho
  have hget : circle16[k]? = some o := by rw [List.getElem?_eq_getElem hk', hoe]
  unfold Inside at hi
  obtain ⟨v, v1, v2⟩ := UcImage.get_ok hw (x := x + o.1) (y := y + o.2) (by omega) (by omega)
  have hval : circleVal img x y k = v.toNat := by
    unfold circleVal
    rw [hget]
    simp only
    rw [v1]
  constructor
  · unfold circleRead
    rw [readAt_ok (by simpa using hk')]
    simp only [Res.ok_bind, List.getElem_map, hoe]
    have he : (y : Int) * img.stride + x + (o.1 + img.stride * o.2) = img.stride * (y + o.2) + (x + o.1) := by
      rw [Int.mul_add, Int.mul_comm (y : Int)]
      omega
    rw [he]
    unfold UcImage.get at v2
    split at v2
    · rename_i h0
      rw [if_pos h0, v2, hval]
      rfl
    · cases v2
  · intro p
    rw [hval]
    constructor
    · rintro ⟨o', v', e1, e2, e3⟩
      rw [hget] at e1
      cases e1
      rw [v1] at e2
      cases e2
      exact e3
    · intro hp
      exact ⟨o, v, hget, v1, hp⟩

theorem segment_iff (hw : img.Wf) (hi : Inside img x y) {b : Int} {c : UInt8} (hc : img.pixel x y = some c) :
    Segment (fun k => decide (circleVal img x y k > c.toNat + b)) (fun k => decide (circleVal img x y k < c.toNat - b)) ↔
      FastCorner img b x y := by
  have hon : ∀ s k, k < 9 → ∀ p : Int → Prop, OnCircle img x y ((s + k) % 16) p ↔ p (circleVal img x y ((s + k) % 16)) :=
    fun s k _ p => (circleRead_ok hw hi (Nat.mod_lt _ (by omega))).2 p
  unfold FastCorner Segment ArcAll
  constructor
  · rintro ⟨s, hs, h⟩
    refine ⟨c, hc, s, hs, ?_⟩
    rcases h with h | h
    · left; intro k hk; rw [hon s k hk]; simpa using h k hk
    · right; intro k hk; rw [hon s k hk]; simpa using h k hk
  · rintro ⟨c', hc', s, hs, h⟩
    rw [hc] at hc'; cases hc'
    refine ⟨s, hs, ?_⟩
    rcases h with h | h
    · left; intro k hk; have := h k hk; rw [hon s k hk] at this; simpa using this
    · right; intro k hk; have := h k hk; rw [hon s k hk] at this; simpa using this

open Classical in
theorem fastTest_ok (hw : img.Wf) (hsm : img.Small) (hi : Inside img x y) {b : Int} (hb : 0 ≤ b) (hb2 : b ≤ 2147483392) :
    fastTest img (circle16.map (fun o => o.1 + img.stride * o.2)) b x y = .ok (decide (FastCorner img b x y)) := by
  unfold fastTest
  rw [pixelBase_ok hsm hi]
  obtain ⟨c, c1, c2⟩ := bounds_ok hw hi hb hb2
  simp only [Res.ok_bind, c2]
  rw [FastTree.walk_ok (v := circleVal img x y) (fun k hk => (circleRead_ok hw hi hk).1) _ _ _ _ detectTree_check]
  congr 1
  rw [Bool.eq_iff_iff, FastTree.check_sound (by intro j h; simp only [decide_eq_true_eq] at h; omega) _ _ _ _
    detectTree_check (possible_all _ _), segment_iff hw hi c1]
  simp

open Classical in
theorem scoreTest_ok (hw : img.Wf) (hi : Inside img x y) {b : Int} (hb : 0 ≤ b) (hb2 : b ≤ 2147483392) :
    scoreTest img.data ((y : Int) * img.stride + x) (circle16.map (fun o => o.1 + img.stride * o.2)) b =
      .ok (decide (FastCorner img b x y)) := by
  unfold scoreTest
  obtain ⟨c, c1, c2⟩ := bounds_ok hw hi hb hb2
  simp only [Res.ok_bind, c2]
  rw [FastTree.walk_ok (v := circleVal img x y) (fun k hk => (circleRead_ok hw hi hk).1) _ _ _ _ scoreTree_check]
  congr 1
  rw [Bool.eq_iff_iff, FastTree.check_sound (by intro j h; simp only [decide_eq_true_eq] at h; omega) _ _ _ _
    scoreTree_check (possible_all _ _), segment_iff hw hi c1]
  simp

end

/-! ## Detection -/

section
variable (img : UcImage) (b : Int)

open Classical in
/-- The corners of row `y` from `x` on. -/
noncomputable def rowCorners (y x : Nat) : List (Nat × Nat) :=
  ((List.range' x (img.width - 3 - x)).map (fun x => (x, y))).filter (fun p => decide (FastCorner img b p.1 p.2))

/-- The corners of the rows from `y` on. -/
noncomputable def rowsCorners (y : Nat) : List (Nat × Nat) :=
  (List.range' y (img.height - 3 - y)).flatMap (fun y => rowCorners img b y 3)

variable {img b}

open Classical in
theorem fastRow_ok (hw : img.Wf) (hsm : img.Small) (hb : 0 ≤ b) (hb2 : b ≤ 2147483392) {cap : Nat} {rsize : Nat}
    (hcap : rsize ≤ cap) {y : Nat} (hy : 3 ≤ y ∧ y + 3 < img.height) :
    ∀ (m x : Nat) (found : List (Nat × Nat)), m = img.width - 3 - x → 3 ≤ x → found.length ≤ rsize →
      fastRow img (circle16.map (fun o => o.1 + img.stride * o.2)) b cap rsize y x found =
        .ok (if (found ++ rowCorners img b y x).length ≤ rsize then (false, found ++ rowCorners img b y x)
          else (true, (found ++ rowCorners img b y x).take rsize)) := by
  intro m
  induction m with
  | zero =>
    intro x found hm hx hf
    rw [fastRow, if_neg (by omega)]
    have : rowCorners img b y x = [] := by
      unfold rowCorners
      rw [← hm]; rfl
    rw [this, List.append_nil, if_pos hf]
    rfl
  | succ m ih =>
    intro x found hm hx hf
    rw [fastRow, if_pos (by omega), fastTest_ok hw hsm ⟨by omega, by omega, by omega, by omega⟩ hb hb2]
    simp only [Res.ok_bind, Res.pure_eq]
    have hrow : rowCorners img b y x =
        if FastCorner img b x y then (x, y) :: rowCorners img b y (x + 1) else rowCorners img b y (x + 1) := by
      unfold rowCorners
      rw [← hm, List.range'_succ, List.map_cons, List.filter_cons]
      have : img.width - 3 - (x + 1) = m := by omega
      rw [this]
      simp only [decide_eq_true_eq]
    by_cases hc : FastCorner img b x y
    · rw [if_pos (by simpa using hc)]
      rw [if_pos hc] at hrow
      by_cases hfull : (found.length : Int) = rsize
      · rw [if_pos hfull, hrow, if_neg (by simp; omega)]
        have : rsize = found.length := by omega
        rw [this, List.take_left' rfl]
      · rw [if_neg hfull, if_pos (by omega), ih (x + 1) _ (by omega) (by omega) (by simp; omega), hrow]
        simp
    · rw [if_neg (by simpa using hc), ih (x + 1) found (by omega) (by omega) hf, hrow, if_neg hc]

theorem fastRows_ok (hw : img.Wf) (hsm : img.Small) (hb : 0 ≤ b) (hb2 : b ≤ 2147483392) {cap : Nat} {rsize : Nat}
    (hcap : rsize ≤ cap) :
    ∀ (m y : Nat) (found : List (Nat × Nat)), m = img.height - 3 - y → 3 ≤ y → found.length ≤ rsize →
      fastRows img (circle16.map (fun o => o.1 + img.stride * o.2)) b cap rsize y found =
        .ok ((found ++ rowsCorners img b y).take rsize) := by
  intro m
  induction m with
  | zero =>
    intro y found hm hy hf
    rw [fastRows, if_neg (by omega)]
    have : rowsCorners img b y = [] := by
      unfold rowsCorners
      rw [← hm]; rfl
    rw [this, List.append_nil, List.take_of_length_le hf]
    rfl
  | succ m ih =>
    intro y found hm hy hf
    rw [fastRows, if_pos (by omega), fastRow_ok hw hsm hb hb2 hcap ⟨hy, by omega⟩ _ 3 found rfl (by omega) hf]
    simp only [Res.ok_bind, Res.pure_eq]
    have hrow : rowsCorners img b y = rowCorners img b y 3 ++ rowsCorners img b (y + 1) := by
      unfold rowsCorners
      rw [← hm, List.range'_succ, List.flatMap_cons]
      have : img.height - 3 - (y + 1) = m := by omega
      rw [this]
    rw [hrow]
    by_cases hl : (found ++ rowCorners img b y 3).length ≤ rsize
    · rw [if_pos hl]
      simp only [Bool.false_eq_true, if_false]
      rw [ih (y + 1) _ (by omega) (by omega) hl, List.append_assoc]
    · rw [if_neg hl]
      simp only [if_true]
      rw [← List.append_assoc, List.take_append_of_le_length (Nat.le_of_not_le hl)]

/-- Raster order of positions: by rows, from left to right. -/
def RasterPos (l : List (Nat × Nat)) : Prop := l.Pairwise (fun p q => p.2 < q.2 ∨ (p.2 = q.2 ∧ p.1 < q.1))

theorem rowCorners_row {y x : Nat} {p : Nat × Nat} (hp : p ∈ rowCorners img b y x) :
    p.2 = y ∧ x ≤ p.1 ∧ p.1 < x + (img.width - 3 - x) ∧ FastCorner img b p.1 p.2 := by
  unfold rowCorners at hp
  rw [List.mem_filter, List.mem_map] at hp
  obtain ⟨⟨x', hx', rfl⟩, hc⟩ := hp
  rw [List.mem_range'_1] at hx'
  exact ⟨rfl, hx'.1, hx'.2, by simpa using hc⟩

theorem rowsCorners_raster (y : Nat) : RasterPos (rowsCorners img b y) := by
  unfold RasterPos rowsCorners
  rw [List.pairwise_flatMap]
  constructor
  · intro y' _
    unfold rowCorners
    apply List.Pairwise.filter
    rw [List.pairwise_map]
    exact (List.pairwise_lt_range' (step := 1) (by omega)).imp (fun h => Or.inr ⟨rfl, h⟩)
  · exact (List.pairwise_lt_range' (step := 1) (by omega)).imp (fun h p hp q hq => by
      left
      rw [(rowCorners_row hp).1, (rowCorners_row hq).1]
      exact h)

/-- C43. For every image, capacity and threshold from 0 on, the detector stores the first
`rsize` of the corners: the list `l` holds, in raster order, exactly the pixels at least three
pixels from the border that pass the segment test. All pixels read are in the image. -/
theorem c43_detect (img : UcImage) (hw : img.Wf) (hsm : img.Small) (b : Int) (hb : 0 ≤ b) (hb2 : b ≤ 2147483392)
    (cap rsize : Nat) (hcap : rsize ≤ cap) :
    ∃ l, fast9Detect img b cap rsize = .ok (l.take rsize) ∧ RasterPos l ∧
      ∀ x y : Nat, (x, y) ∈ l ↔ Inside img x y ∧ FastCorner img b x y := by
  refine ⟨rowsCorners img b 3, ?_, rowsCorners_raster 3, ?_⟩
  · unfold fast9Detect
    rw [makeOffsets_ok hsm.2]
    simp only [Res.ok_bind]
    rw [fastRows_ok hw hsm hb hb2 hcap _ 3 [] rfl (by omega) (by simp)]
    rfl
  · intro x y
    unfold rowsCorners
    rw [List.mem_flatMap]
    constructor
    · rintro ⟨y', hy', hp⟩
      have h := rowCorners_row hp
      simp only at h
      rw [List.mem_range'_1] at hy'
      refine ⟨?_, h.2.2.2⟩
      unfold Inside
      omega
    · rintro ⟨hi, hc⟩
      unfold Inside at hi
      refine ⟨y, by rw [List.mem_range'_1]; omega, ?_⟩
      unfold rowCorners
      rw [List.mem_filter, List.mem_map]
      exact ⟨⟨x, by rw [List.mem_range'_1]; omega, rfl⟩, by simpa using hc⟩

/-! ## Scores -/

theorem OnCircle.mono {img : UcImage} {x y : Int} {k : Nat} {p q : Int → Prop} (h : ∀ v, p v → q v)
    (hp : OnCircle img x y k p) : OnCircle img x y k q := by
  obtain ⟨o, v, h1, h2, h3⟩ := hp
  exact ⟨o, v, h1, h2, h _ h3⟩

/-- A corner for a threshold is one for every smaller threshold. -/
theorem FastCorner.anti {img : UcImage} {b b' x y : Int} (h : b' ≤ b) (hc : FastCorner img b x y) :
    FastCorner img b' x y := by
  obtain ⟨c, h1, s, hs, h2⟩ := hc
  refine ⟨c, h1, s, hs, ?_⟩
  rcases h2 with h2 | h2
  · left; intro k hk; exact (h2 k hk).mono (fun v hv => by omega)
  · right; intro k hk; exact (h2 k hk).mono (fun v hv => by omega)

/-- No pixel is a corner for the threshold 255. -/
theorem FastCorner.lt {img : UcImage} {b x y : Int} (hc : FastCorner img b x y) : b < 255 := by
  obtain ⟨c, h1, s, hs, h2⟩ := hc
  have hcl := c.toNat_lt
  rcases h2 with h2 | h2
  · obtain ⟨o, v, _, _, h3⟩ := h2 0 (by omega)
    have := v.toNat_lt
    omega
  · obtain ⟨o, v, _, _, h3⟩ := h2 0 (by omega)
    omega

/-- `s` is the largest threshold for which (x, y) is a corner. -/
def IsScore (img : UcImage) (x y : Nat) (s : Int) : Prop :=
  FastCorner img s x y ∧ ∀ b, FastCorner img b x y → b ≤ s

open Classical in
theorem scoreLoop_ok {test : Int → Res Bool} {P : Int → Prop} (ht : ∀ b, 0 ≤ b → b ≤ 255 → test b = .ok (decide (P b)))
    : ∀ (fuel : Nat) (bmin bmax : Int), 0 ≤ bmin → bmin + 1 < bmax → bmax ≤ 255 → P bmin → ¬ P bmax →
      bmax - bmin ≤ fuel →
      ∃ s, scoreLoop test fuel bmin bmax ((bmin + bmax).tdiv 2) = .ok s ∧ P s ∧ ¬ P (s + 1) := by
  intro fuel
  induction fuel with
  | zero => intro bmin bmax h0 h1 h2 h3 h4 h5; omega
  | succ fuel ih =>
    intro bmin bmax h0 h1 h2 h3 h4 h5
    have hd : (bmin + bmax).tdiv 2 = (bmin + bmax) / 2 := Int.tdiv_eq_ediv_of_nonneg (by omega)
    rw [hd, scoreLoop, ht _ (by omega) (by omega)]
    simp only [Res.ok_bind, Res.pure_eq, decide_eq_true_eq]
    by_cases hp : P ((bmin + bmax) / 2)
    · rw [if_pos hp, if_pos hp]
      by_cases hstop : (bmin + bmax) / 2 = bmax - 1 ∨ (bmin + bmax) / 2 = bmax
      · rw [if_pos hstop]
        refine ⟨_, rfl, hp, ?_⟩
        have : (bmin + bmax) / 2 + 1 = bmax := by omega
        rw [this]; exact h4
      · rw [if_neg hstop, if_pos (by unfold InI32; omega)]
        exact ih _ _ (by omega) (by omega) h2 hp h4 (by omega)
    · rw [if_neg hp, if_neg hp]
      by_cases hstop : bmin = (bmin + bmax) / 2 - 1 ∨ bmin = (bmin + bmax) / 2
      · rw [if_pos hstop]
        refine ⟨_, rfl, h3, ?_⟩
        have : bmin + 1 = (bmin + bmax) / 2 := by omega
        rw [this]; exact hp
      · rw [if_neg hstop, if_pos (by unfold InI32; omega)]
        exact ih _ _ (by omega) (by omega) (by omega) h3 hp (by omega)

theorem cornerScore_ok {img : UcImage} (hw : img.Wf) {x y : Nat} (hi : Inside img x y) {b : Int} (hb : 0 ≤ b)
    (hc : FastCorner img b x y) :
    ∃ s, cornerScore 256 img.data ((y : Int) * img.stride + x) (circle16.map (fun o => o.1 + img.stride * o.2)) b = .ok s ∧
      IsScore img x y s := by
  have hlt := hc.lt
  unfold cornerScore
  rw [if_pos (by unfold InI32; omega)]
  have hfin : ∀ s, FastCorner img s x y → ¬ FastCorner img (s + 1) x y → IsScore img x y s := by
    intro s h1 h2
    refine ⟨h1, ?_⟩
    intro b' hb'
    apply Classical.byContradiction
    intro hgt
    exact h2 (hb'.anti (by omega))
  have hn255 : ¬ FastCorner img 255 x y := fun h => absurd h.lt (by omega)
  by_cases h254 : b = 254
  · subst h254
    refine ⟨254, ?_, hfin 254 hc hn255⟩
    have : ((255 : Int) + 254).tdiv 2 = 254 := by decide
    rw [this, scoreLoop, scoreTest_ok hw hi (by omega) (by omega)]
    simp only [Res.ok_bind, Res.pure_eq]
    rw [if_pos (by simp [hc])]
    simp
  · obtain ⟨s, s1, s2, s3⟩ := scoreLoop_ok (test := scoreTest img.data ((y : Int) * img.stride + x) (circle16.map (fun o => o.1 + img.stride * o.2)))
      (P := fun b => FastCorner img b x y) (fun b h0 h1 => scoreTest_ok hw hi h0 (by omega))
      256 b 255 hb (by omega) (by omega) hc hn255 (by omega)
    rw [Int.add_comm 255 b]
    exact ⟨s, s1, hfin s s2 s3⟩

/-- C44. For corners found with threshold `b`, the scores stored are the largest thresholds for
which the pixels are corners. The search takes at most 256 steps. -/
theorem c44_score (img : UcImage) (hw : img.Wf) (hsm : img.Small) (b : Int) (hb : 0 ≤ b) (corners : List (Nat × Nat))
    (hc : ∀ p ∈ corners, Inside img p.1 p.2 ∧ FastCorner img b p.1 p.2) :
    ∃ scores : List Int, fast9Score 256 img b corners = .ok scores ∧ scores.length = corners.length ∧
      ∀ (i x y : Nat) (s : Int), corners[i]? = some (x, y) → scores[i]? = some s → IsScore img x y s := by
  unfold fast9Score
  rw [makeOffsets_ok hsm.2]
  simp only [Res.ok_bind]
  induction corners with
  | nil => exact ⟨[], rfl, rfl, by intro i x y s h; simp at h⟩
  | cons p l ih =>
    obtain ⟨x, y⟩ := p
    obtain ⟨scores, r1, r2, r3⟩ := ih (fun p hp => hc p (List.mem_cons_of_mem _ hp))
    obtain ⟨hi, hco⟩ := hc (x, y) List.mem_cons_self
    obtain ⟨s, s1, s2⟩ := cornerScore_ok hw hi hb hco
    refine ⟨s :: scores, ?_, by simp [r2], ?_⟩
    · rw [scoreCorners, pixelBase_ok hsm hi]
      simp only [Res.ok_bind, s1, r1]
      rfl
    · intro i x' y' s' h1 h2
      cases i with
      | zero =>
        simp only [List.getElem?_cons_zero, Option.some.injEq, Prod.mk.injEq] at h1 h2
        obtain ⟨rfl, rfl⟩ := h1
        subst h2
        exact s2
      | succ i =>
        rw [List.getElem?_cons_succ] at h1 h2
        exact r3 i x' y' s' h1 h2

/-- Given a start value above 255 the search does not end, whatever the pixels. -/
theorem c44_above_255_loops (test : Int → Res Bool) (h : test 255 = .ok false) (fuel : Nat) :
    scoreLoop test fuel 256 255 255 = .ub := by
  induction fuel with
  | zero => rfl
  | succ fuel ih =>
    rw [scoreLoop, h]
    simp only [Res.ok_bind, Bool.false_eq_true, if_false]
    rw [if_neg (by omega), if_pos (by unfold InI32; omega)]
    exact ih

/-- A bright pixel on a dark 7×7 image with stride 8: found with threshold 10, its score 199. -/
def demoFast : UcImage := ⟨7, 7, 8, (List.replicate 56 0).set 27 200⟩

example : demoFast.Wf ∧ demoFast.Small ∧ Inside demoFast 3 3 := by
  unfold UcImage.Wf UcImage.Small Inside demoFast; decide +kernel

example : fast9Detect demoFast 10 5 5 = .ok [(3, 3)] ∧ fast9Score 256 demoFast 10 [(3, 3)] = .ok [199] := by
  decide +kernel

/-- A pixel equal to the centre is both brighter and darker than it with the threshold -1. -/
def negFast : UcImage := ⟨7, 7, 7, [0, 0, 150, 150, 150, 0, 0, 0, 150, 0, 0, 0, 150, 0, 150, 0, 0, 0, 0, 0, 150, 50, 0, 0, 100, 0, 0, 50, 50, 0, 0, 0, 0, 0, 50, 0, 50, 0, 0, 0, 50, 0, 0, 0, 50, 100, 50, 0, 0]⟩

/-- With a negative threshold the tree is not the segment test: `negFast` passes it, but is not
reported. -/
theorem c43_negative_threshold :
    fast9Detect negFast (-1) 5 5 = .ok [] ∧ FastCorner negFast (-1) 3 3 := by
  constructor
  · decide +kernel
  · refine ⟨100, by decide +kernel, 12, by omega, Or.inr ?_⟩
    intro k hk
    have hall : ∀ k < 9, ((circle16[(12 + k) % 16]?.bind (fun o => negFast.pixel (3 + o.1) (3 + o.2))).any
        (fun v => decide ((v.toNat : Int) < 100 - -1))) = true := by decide +kernel
    have h := hall k hk
    cases ho : circle16[(12 + k) % 16]? with
    | none => rw [ho] at h; simp at h
    | some o =>
      rw [ho] at h
      cases hv : negFast.pixel (3 + o.1) (3 + o.2) with
      | none => simp [hv] at h
      | some v =>
        simp only [Option.bind_some, hv, Option.any_some, decide_eq_true_eq] at h
        exact ⟨o, v, ho, hv, h⟩

end
end Nx
