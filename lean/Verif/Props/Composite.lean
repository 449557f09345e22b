import Verif.Model.Panorama
import Verif.Spec.Composite
import Verif.Props.Warp
import Verif.Props.Homography
import Verif.Props.Mark

/-! # C103: the composition of a panorama -/

namespace Nx

theorem shift_projects (dx dy : Rat) (H : M3 Rat) (p : Rat × Rat) (x y : Rat) :
    Projects (shiftOrigin dx dy H).mat p (x, y) ↔ Projects H.mat p (x + dx, y + dy) := by
  rw [projects_iff, projects_iff]
  simp only [shiftOrigin]
  refine and_congr_right fun _ => and_congr ?_ ?_
  · constructor <;> intro h <;> linear_combination h
  · constructor <;> intro h <;> linear_combination h

theorem shift_det (dx dy : Rat) (H : M3 Rat) : (shiftOrigin dx dy H).mat.det = H.mat.det := by
  rw [← c57_det, ← c57_det]
  simp only [shiftOrigin, dmat3Det]
  ring

theorem trunc_near (q : Rat) : (ratTrunc q : Rat) - 1 < q ∧ q < ratTrunc q + 1 := by
  by_cases h : q < 0
  · rw [ratTrunc_neg h]
    have h1 := Int.floor_le (-q)
    have h2 := Int.lt_floor_add_one (-q)
    push_cast
    constructor <;> linarith
  · rw [ratTrunc_nonneg (not_lt.mp h)]
    have h1 := Int.floor_le q
    have h2 := Int.lt_floor_add_one q
    constructor <;> linarith

theorem trunc_ge_zero (q : Rat) : 0 ≤ ratTrunc q ↔ -1 < q := by
  by_cases h : q < 0
  · rw [ratTrunc_neg h]
    have h0 : 0 ≤ ⌊-q⌋ := Int.floor_nonneg.mpr (by linarith)
    constructor
    · intro h1
      have : ⌊-q⌋ = 0 := by omega
      have h2 := Int.lt_floor_add_one (-q)
      rw [this] at h2
      push_cast at h2
      linarith
    · intro h1
      have : ⌊-q⌋ < 1 := by
        rw [Int.floor_lt]
        push_cast
        linarith
      omega
  · rw [ratTrunc_nonneg (not_lt.mp h)]
    constructor
    · intro _
      linarith
    · intro _
      exact Int.floor_nonneg.mpr (not_lt.mp h)

theorem trunc_lt_nat {q : Rat} (h0 : -1 < q) (n : Nat) (hn : 0 < n ∨ 0 ≤ q) : ratTrunc q < n ↔ q < n := by
  by_cases h : q < 0
  · have hz : ratTrunc q = 0 := by
      have h1 := (trunc_ge_zero q).mpr h0
      rw [ratTrunc_neg h] at h1 ⊢
      have : 0 ≤ ⌊-q⌋ := Int.floor_nonneg.mpr (by linarith)
      omega
    have hn' : 0 < n := by
      rcases hn with hn | hn
      · exact hn
      · linarith
    rw [hz]
    constructor
    · intro _
      have : (0 : Rat) ≤ n := Nat.cast_nonneg _
      linarith
    · intro _
      exact_mod_cast hn'
  · rw [ratTrunc_nonneg (not_lt.mp h), Int.floor_lt]
    push_cast
    rfl

theorem trunc_toNat {q : Rat} (h : -1 < q) : (ratTrunc q).toNat = ⌊q⌋.toNat := by
  by_cases h0 : q < 0
  · have h1 := (trunc_ge_zero q).mpr h
    rw [ratTrunc_neg h0] at h1 ⊢
    have h2 : 0 ≤ ⌊-q⌋ := Int.floor_nonneg.mpr (by linarith)
    have h3 : ⌊q⌋ < 0 := by
      rw [Int.floor_lt]
      exact_mod_cast h0
    omega
  · rw [ratTrunc_nonneg (not_lt.mp h0)]

/-- Every corner has an image that can be converted to `int`. -/
def CornersFit (q : M3 Rat × GImage Byte) : Prop :=
  ∀ c ∈ corners q.2.width q.2.height, ∃ p, Projects q.1.mat c p ∧ IntRange p.1 ∧ IntRange p.2

/-- The point is in the box, up to a pixel. -/
def PanDims.Near (d : PanDims) (p : Rat × Rat) : Prop :=
  (d.minX : Rat) - 1 < p.1 ∧ p.1 < d.maxX + 1 ∧ (d.minY : Rat) - 1 < p.2 ∧ p.2 < d.maxY + 1

/-- One box contains the other. -/
def PanDims.Le (d e : PanDims) : Prop := e.minX ≤ d.minX ∧ e.minY ≤ d.minY ∧ d.maxX ≤ e.maxX ∧ d.maxY ≤ e.maxY

theorem PanDims.Le.trans {a b c : PanDims} (h1 : a.Le b) (h2 : b.Le c) : a.Le c :=
  ⟨h2.1.trans h1.1, h2.2.1.trans h1.2.1, h1.2.2.1.trans h2.2.2.1, h1.2.2.2.trans h2.2.2.2⟩

theorem PanDims.Le.near {a b : PanDims} (h : a.Le b) {p : Rat × Rat} (hp : a.Near p) : b.Near p := by
  obtain ⟨h1, h2, h3, h4⟩ := h
  obtain ⟨p1, p2, p3, p4⟩ := hp
  have q1 : (b.minX : Rat) ≤ a.minX := by exact_mod_cast h1
  have q2 : (b.minY : Rat) ≤ a.minY := by exact_mod_cast h2
  have q3 : (a.maxX : Rat) ≤ b.maxX := by exact_mod_cast h3
  have q4 : (a.maxY : Rat) ≤ b.maxY := by exact_mod_cast h4
  exact ⟨by linarith, by linarith, by linarith, by linarith⟩

/-- The sides of the box are the old ones or come from one of the points, up to a pixel. -/
def Sides (d0 d : PanDims) (S : Rat × Rat → Prop) : Prop :=
  (d.minX = d0.minX ∨ ∃ p, S p ∧ p.1 < d.minX + 1) ∧ (d.minY = d0.minY ∨ ∃ p, S p ∧ p.2 < d.minY + 1) ∧
  (d.maxX = d0.maxX ∨ ∃ p, S p ∧ (d.maxX : Rat) - 1 < p.1) ∧ (d.maxY = d0.maxY ∨ ∃ p, S p ∧ (d.maxY : Rat) - 1 < p.2)

theorem Sides.mono {d0 d : PanDims} {S T : Rat × Rat → Prop} (h : Sides d0 d S) (hst : ∀ p, S p → T p) : Sides d0 d T := by
  obtain ⟨h1, h2, h3, h4⟩ := h
  exact ⟨h1.imp id fun ⟨p, a, b⟩ => ⟨p, hst p a, b⟩, h2.imp id fun ⟨p, a, b⟩ => ⟨p, hst p a, b⟩,
    h3.imp id fun ⟨p, a, b⟩ => ⟨p, hst p a, b⟩, h4.imp id fun ⟨p, a, b⟩ => ⟨p, hst p a, b⟩⟩

theorem Sides.trans {a b c : PanDims} {S : Rat × Rat → Prop} (h1 : Sides a b S) (h2 : Sides b c S) : Sides a c S := by
  obtain ⟨p1, p2, p3, p4⟩ := h1
  obtain ⟨q1, q2, q3, q4⟩ := h2
  refine ⟨?_, ?_, ?_, ?_⟩
  · rcases q1 with e | q
    · rw [e]; exact p1
    · exact Or.inr q
  · rcases q2 with e | q
    · rw [e]; exact p2
    · exact Or.inr q
  · rcases q3 with e | q
    · rw [e]; exact p3
    · exact Or.inr q
  · rcases q4 with e | q
    · rw [e]; exact p4
    · exact Or.inr q

theorem corner_spec {H : M3 Rat} {d : PanDims} {c p : Rat × Rat} (hp : Projects H.mat c p) (h1 : IntRange p.1) (h2 : IntRange p.2) :
    ∃ e, panCorner H d c = .ok e ∧ d.Le e ∧ e.Near p ∧ e.minX ≤ e.maxX ∧ e.minY ≤ e.maxY ∧ Sides d e (fun r => r = p) := by
  unfold panCorner
  rw [(transferFwd_eq_some H c p).mpr hp]
  simp only [(truncInt_fits h1).1, (truncInt_fits h2).1, Res.ok_bind, Res.pure_eq]
  have n1 := trunc_near p.1
  have n2 := trunc_near p.2
  generalize ratTrunc p.1 = x at n1
  generalize ratTrunc p.2 = y at n2
  refine ⟨_, rfl, ⟨min_le_left _ _, min_le_left _ _, le_max_left _ _, le_max_left _ _⟩, ?_, ?_, ?_, ?_⟩
  · have m1 : ((min d.minX x : Int) : Rat) ≤ x := by exact_mod_cast min_le_right _ _
    have m2 : ((min d.minY y : Int) : Rat) ≤ y := by exact_mod_cast min_le_right _ _
    have m3 : (x : Rat) ≤ ((max d.maxX x : Int) : Rat) := by exact_mod_cast le_max_right _ _
    have m4 : (y : Rat) ≤ ((max d.maxY y : Int) : Rat) := by exact_mod_cast le_max_right _ _
    exact ⟨by simp only; linarith, by simp only; linarith, by simp only; linarith, by simp only; linarith⟩
  · exact (min_le_right _ _).trans (le_max_right _ _)
  · exact (min_le_right _ _).trans (le_max_right _ _)
  · refine ⟨?_, ?_, ?_, ?_⟩
    · rcases min_choice d.minX x with e | e
      · exact Or.inl e
      · simp only; rw [e]; exact Or.inr ⟨p, rfl, n1.2⟩
    · rcases min_choice d.minY y with e | e
      · exact Or.inl e
      · simp only; rw [e]; exact Or.inr ⟨p, rfl, n2.2⟩
    · rcases max_choice d.maxX x with e | e
      · exact Or.inl e
      · simp only; rw [e]; exact Or.inr ⟨p, rfl, n1.1⟩
    · rcases max_choice d.maxY y with e | e
      · exact Or.inl e
      · simp only; rw [e]; exact Or.inr ⟨p, rfl, n2.1⟩

theorem imageDims_spec {q : M3 Rat × GImage Byte} (h : CornersFit q) (d : PanDims) :
    ∃ e, panImageDims q.1 q.2.width q.2.height d = .ok e ∧ d.Le e ∧
      (∀ c ∈ corners q.2.width q.2.height, ∀ p, Projects q.1.mat c p → e.Near p) ∧ e.minX ≤ e.maxX ∧ e.minY ≤ e.maxY ∧
      Sides d e (fun r => ∃ c ∈ corners q.2.width q.2.height, Projects q.1.mat c r) := by
  have m1 : ((0 : Rat), (0 : Rat)) ∈ corners q.2.width q.2.height := by simp [corners]
  have m2 : ((q.2.width : Rat), (0 : Rat)) ∈ corners q.2.width q.2.height := by simp [corners]
  have m3 : ((q.2.width : Rat), (q.2.height : Rat)) ∈ corners q.2.width q.2.height := by simp [corners]
  have m4 : ((0 : Rat), (q.2.height : Rat)) ∈ corners q.2.width q.2.height := by simp [corners]
  obtain ⟨p1, a1, b1, c1⟩ := h _ m1
  obtain ⟨p2, a2, b2, c2⟩ := h _ m2
  obtain ⟨p3, a3, b3, c3⟩ := h _ m3
  obtain ⟨p4, a4, b4, c4⟩ := h _ m4
  obtain ⟨d1, e1, l1, n1, -, -, s1⟩ := corner_spec (d := d) a1 b1 c1
  obtain ⟨d2, e2, l2, n2, -, -, s2⟩ := corner_spec (d := d1) a2 b2 c2
  obtain ⟨d3, e3, l3, n3, -, -, s3⟩ := corner_spec (d := d2) a3 b3 c3
  obtain ⟨d4, e4, l4, n4, x4, y4, s4⟩ := corner_spec (d := d3) a4 b4 c4
  unfold panImageDims
  rw [e1]
  simp only [Res.ok_bind]
  rw [e2]
  simp only [Res.ok_bind]
  rw [e3]
  simp only [Res.ok_bind]
  refine ⟨d4, e4, ((l1.trans l2).trans l3).trans l4, ?_, x4, y4, ?_⟩
  · intro c hc p hp
    simp only [corners, List.mem_cons, List.not_mem_nil, or_false] at hc
    rcases hc with rfl | rfl | rfl | rfl
    · rw [hp.unique a1]; exact ((l2.trans l3).trans l4).near n1
    · rw [hp.unique a2]; exact (l3.trans l4).near n2
    · rw [hp.unique a3]; exact l4.near n3
    · rw [hp.unique a4]; exact n4
  · have t1 := s1.mono (T := fun r => ∃ c ∈ corners q.2.width q.2.height, Projects q.1.mat c r) fun p e => ⟨_, m1, by rw [e]; exact a1⟩
    have t2 := s2.mono (T := fun r => ∃ c ∈ corners q.2.width q.2.height, Projects q.1.mat c r) fun p e => ⟨_, m2, by rw [e]; exact a2⟩
    have t3 := s3.mono (T := fun r => ∃ c ∈ corners q.2.width q.2.height, Projects q.1.mat c r) fun p e => ⟨_, m3, by rw [e]; exact a3⟩
    have t4 := s4.mono (T := fun r => ∃ c ∈ corners q.2.width q.2.height, Projects q.1.mat c r) fun p e => ⟨_, m4, by rw [e]; exact a4⟩
    exact ((t1.trans t2).trans t3).trans t4

theorem dims_spec : ∀ (imgs : List (M3 Rat × GImage Byte)) (_ : ∀ q ∈ imgs, CornersFit q) (d : PanDims),
    ∃ e, panDims imgs d = .ok e ∧ d.Le e ∧
      (∀ q ∈ imgs, ∀ c ∈ corners q.2.width q.2.height, ∀ p, Projects q.1.mat c p → e.Near p) ∧
      (imgs ≠ [] → e.minX ≤ e.maxX ∧ e.minY ≤ e.maxY) ∧
      Sides d e (fun r => ∃ q ∈ imgs, ∃ c ∈ corners q.2.width q.2.height, Projects q.1.mat c r) := by
  intro imgs
  induction imgs with
  | nil =>
    intro _ d
    exact ⟨d, rfl, ⟨le_refl _, le_refl _, le_refl _, le_refl _⟩, fun q hq => by simp at hq, fun h => absurd rfl h,
      Or.inl rfl, Or.inl rfl, Or.inl rfl, Or.inl rfl⟩
  | cons q imgs ih =>
    intro h d
    obtain ⟨e, h1, h2, h3, h4, h5, h6⟩ := imageDims_spec (h q (by simp)) d
    obtain ⟨f, g1, g2, g3, g4, g5⟩ := ih (fun q' hq' => h q' (by simp [hq'])) e
    obtain ⟨H, img⟩ := q
    rw [panDims]
    simp only at h1
    rw [h1]
    simp only [Res.ok_bind]
    refine ⟨f, g1, h2.trans g2, ?_, fun _ => ⟨(g2.1.trans h4).trans g2.2.2.1, (g2.2.1.trans h5).trans g2.2.2.2⟩, ?_⟩
    · intro q' hq' c hc p hp
      rw [List.mem_cons] at hq'
      rcases hq' with rfl | hq'
      · exact g2.near (h3 c hc p hp)
      · exact g3 q' hq' c hc p hp
    · exact (h6.mono fun p hp => ⟨_, by simp, hp⟩).trans
        (g5.mono fun p ⟨q', hq', hp⟩ => ⟨q', by simp [hq'], hp⟩)

/-- The box of a panorama contains all corners of all images and none of its sides can be moved, up to a pixel. -/
theorem c103_box {imgs : List (M3 Rat × GImage Byte)} (hne : imgs ≠ []) (h : ∀ q ∈ imgs, CornersFit q) :
    ∃ d, panDims imgs ⟨2147483647, 2147483647, -2147483648, -2147483648⟩ = .ok d ∧ d.minX ≤ d.maxX ∧ d.minY ≤ d.maxY ∧
      (∀ q ∈ imgs, ∀ c ∈ corners q.2.width q.2.height, ∀ p, Projects q.1.mat c p → d.Near p) ∧
      (∃ q ∈ imgs, ∃ c ∈ corners q.2.width q.2.height, ∃ p, Projects q.1.mat c p ∧ p.1 < d.minX + 1) ∧
      (∃ q ∈ imgs, ∃ c ∈ corners q.2.width q.2.height, ∃ p, Projects q.1.mat c p ∧ p.2 < d.minY + 1) ∧
      (∃ q ∈ imgs, ∃ c ∈ corners q.2.width q.2.height, ∃ p, Projects q.1.mat c p ∧ (d.maxX : Rat) - 1 < p.1) ∧
      ∃ q ∈ imgs, ∃ c ∈ corners q.2.width q.2.height, ∃ p, Projects q.1.mat c p ∧ (d.maxY : Rat) - 1 < p.2 := by
  obtain ⟨d, e, h1, h2, h3, s1, s2, s3, s4⟩ := dims_spec imgs h ⟨2147483647, 2147483647, -2147483648, -2147483648⟩
  obtain ⟨g1, g2⟩ := h3 hne
  -- a corner is a witness if a side is the initial value
  obtain ⟨q, l, rfl⟩ : ∃ q l, imgs = q :: l := by
    cases imgs with
    | nil => exact absurd rfl hne
    | cons q l => exact ⟨q, l, rfl⟩
  have m1 : ((0 : Rat), (0 : Rat)) ∈ corners q.2.width q.2.height := by simp [corners]
  obtain ⟨p, a, b, c⟩ := h q (by simp) _ m1
  have near := h2 q (by simp) _ m1 p a
  refine ⟨d, e, g1, g2, h2, ?_, ?_, ?_, ?_⟩
  · rcases s1 with s | ⟨r, ⟨q', hq', c', hc', hp⟩, hlt⟩
    · refine ⟨q, by simp, _, m1, p, a, ?_⟩
      rw [s]
      push_cast
      linarith [b.2]
    · exact ⟨q', hq', c', hc', r, hp, hlt⟩
  · rcases s2 with s | ⟨r, ⟨q', hq', c', hc', hp⟩, hlt⟩
    · refine ⟨q, by simp, _, m1, p, a, ?_⟩
      rw [s]
      push_cast
      linarith [c.2]
    · exact ⟨q', hq', c', hc', r, hp, hlt⟩
  · rcases s3 with s | ⟨r, ⟨q', hq', c', hc', hp⟩, hlt⟩
    · refine ⟨q, by simp, _, m1, p, a, ?_⟩
      rw [s]
      push_cast
      linarith [b.1]
    · exact ⟨q', hq', c', hc', r, hp, hlt⟩
  · rcases s4 with s | ⟨r, ⟨q', hq', c', hc', hp⟩, hlt⟩
    · refine ⟨q, by simp, _, m1, p, a, ?_⟩
      rw [s]
      push_cast
      linarith [c.1]
    · exact ⟨q', hq', c', hc', r, hp, hlt⟩

/-- The matrix back from the panorama with the origin `(dx, dy)`. -/
def backOf (dx dy : Rat) (q : M3 Rat × GImage Byte) : M3 Rat × GImage Byte := ((dmat3Inv (shiftOrigin dx dy q.1)).1, q.2)

/-- The transfer back to an image is undone by its own matrix. -/
theorem back_transfer {dx dy x y : Rat} {q : M3 Rat × GImage Byte} (hd : q.1.mat.det ≠ 0) {p : Rat × Rat} :
    (transferFwd (backOf dx dy q).1 (x, y)).1 = some p ↔ Projects q.1.mat p (x + dx, y + dy) := by
  have hd' : (shiftOrigin dx dy q.1).mat.det ≠ 0 := by rw [shift_det]; exact hd
  rw [← shift_projects, transferFwd_eq_some]
  obtain ⟨i1, i2⟩ := c57_inv _ hd'
  constructor
  · intro h
    exact h.inv i1
  · intro h
    exact h.inv i2

/-- An image that can be composed: it has pixels, its matrix is regular and the position comes from a point that can be converted. -/
structure CanCompose (P : Rat × Rat) (q : M3 Rat × GImage Byte) : Prop where
  wf : q.2.Wf
  w0 : 0 < q.2.width
  h0 : 0 < q.2.height
  det : q.1.mat.det ≠ 0
  from_ : ∃ p, Projects q.1.mat p P ∧ IntRange p.1 ∧ IntRange p.2

/-- The images with their matrices. -/
def withMat (imgs : List (M3 Rat × GImage Byte)) : List (Matrix (Fin 3) (Fin 3) Rat × GImage Byte) := imgs.map fun q => (q.1.mat, q.2)

theorem value_spec {dx dy : Rat} {x y : Nat} : ∀ (imgs : List (M3 Rat × GImage Byte))
    (_ : ∀ q ∈ imgs, CanCompose ((x : Rat) + dx, (y : Rat) + dy) q) (v0 : Byte),
    ∃ v, compositeValue x y (imgs.map (backOf dx dy)) v0 = .ok v ∧
      ((∃ l1 q l2 p, withMat imgs = l1 ++ q :: l2 ∧ Covers q ((x : Rat) + dx, (y : Rat) + dy) p ∧
        (∀ q' ∈ l2, ∀ p', ¬ Covers q' ((x : Rat) + dx, (y : Rat) + dy) p') ∧
        q.2.data[⌊p.2⌋.toNat * q.2.stride + ⌊p.1⌋.toNat]? = some v) ∨
      ((∀ q ∈ withMat imgs, ∀ p, ¬ Covers q ((x : Rat) + dx, (y : Rat) + dy) p) ∧ v = v0)) := by
  intro imgs
  induction imgs with
  | nil => intro _ v0; exact ⟨v0, rfl, Or.inr ⟨fun q hq => by simp [withMat] at hq, rfl⟩⟩
  | cons q imgs ih =>
    intro h v0
    have hq := h q (by simp)
    obtain ⟨p, hp, hx, hy⟩ := hq.from_
    have hb := (back_transfer (dx := dx) (dy := dy) (x := x) (y := y) hq.det (p := p)).mpr hp
    -- other points are not shown at the position
    have huniq : ∀ p', Projects q.1.mat p' ((x : Rat) + dx, (y : Rat) + dy) → p' = p := by
      intro p' hp'
      have := (back_transfer (dx := dx) (dy := dy) (x := x) (y := y) hq.det (p := p')).mpr hp'
      rw [hb] at this
      cases this
      rfl
    rw [List.map_cons]
    obtain ⟨H, img⟩ := q
    unfold compositeValue
    simp only [backOf] at hb ⊢
    rw [hb]
    simp only [(truncInt_fits hx).1, (truncInt_fits hy).1, Res.ok_bind]
    have hcov : (ratTrunc p.1 ≥ 0 ∧ ratTrunc p.1 < img.width ∧ ratTrunc p.2 ≥ 0 ∧ ratTrunc p.2 < img.height) ↔
        Covers (H.mat, img) ((x : Rat) + dx, (y : Rat) + dy) p := by
      constructor
      · rintro ⟨h1, h2, h3, h4⟩
        have k1 := (trunc_ge_zero p.1).mp h1
        have k2 := (trunc_ge_zero p.2).mp h3
        exact ⟨hp, k1, (trunc_lt_nat k1 _ (Or.inl hq.w0)).mp h2, k2, (trunc_lt_nat k2 _ (Or.inl hq.h0)).mp h4⟩
      · rintro ⟨-, k1, k2, k3, k4⟩
        exact ⟨(trunc_ge_zero p.1).mpr k1, (trunc_lt_nat k1 _ (Or.inl hq.w0)).mpr k2, (trunc_ge_zero p.2).mpr k3,
          (trunc_lt_nat k3 _ (Or.inl hq.h0)).mpr k4⟩
    by_cases hc : ratTrunc p.1 ≥ 0 ∧ ratTrunc p.1 < img.width ∧ ratTrunc p.2 ≥ 0 ∧ ratTrunc p.2 < img.height
    · have hcv := hcov.mp hc
      have hlen : ⌊p.2⌋.toNat * img.stride + ⌊p.1⌋.toNat < img.data.length := by
        rw [← trunc_toNat hcv.2.1, ← trunc_toNat hcv.2.2.2.1]
        rw [hq.wf.length_eq]
        have := hq.wf.stride_ge
        simp only at this
        obtain ⟨c1, c2, c3, c4⟩ := hc
        exact pixIdx_lt (by show (ratTrunc p.1).toNat < img.stride; omega) (by show (ratTrunc p.2).toNat < img.height; omega)
      have er : readI img.data (ratTrunc p.2 * img.stride + ratTrunc p.1) =
          .ok (img.data[⌊p.2⌋.toNat * img.stride + ⌊p.1⌋.toNat]'hlen) := by
        obtain ⟨a, ha⟩ := Int.eq_ofNat_of_zero_le hc.1
        obtain ⟨b, hb'⟩ := Int.eq_ofNat_of_zero_le hc.2.2.1
        have ta := trunc_toNat hcv.2.1
        have tb := trunc_toNat hcv.2.2.2.1
        rw [ha] at ta ⊢
        rw [hb'] at tb ⊢
        rw [show (b : Int) * img.stride + a = ((b * img.stride + a : Nat) : Int) by push_cast; rfl]
        unfold readI
        rw [if_pos (by omega)]
        apply readAt_some
        rw [← List.getElem?_eq_getElem, ← ta, ← tb]
        rfl
      rw [compositeSample, if_pos hc, er]
      simp only [Res.ok_bind]
      obtain ⟨v, ev, hv⟩ := ih (fun q' hq' => h q' (by simp [hq'])) (img.data[⌊p.2⌋.toNat * img.stride + ⌊p.1⌋.toNat]'hlen)
      refine ⟨v, ev, Or.inl ?_⟩
      rcases hv with ⟨l1, q', l2, p', e1, e2, e3, e4⟩ | ⟨e1, e2⟩
      · refine ⟨(H.mat, img) :: l1, q', l2, p', ?_, e2, e3, e4⟩
        rw [List.cons_append, ← e1]
        rfl
      · refine ⟨[], (H.mat, img), withMat imgs, p, rfl, hcv, e1, ?_⟩
        rw [e2, List.getElem?_eq_getElem]
    · rw [compositeSample, if_neg hc]
      simp only [Res.ok_bind]
      obtain ⟨v, ev, hv⟩ := ih (fun q' hq' => h q' (by simp [hq'])) v0
      refine ⟨v, ev, ?_⟩
      rcases hv with ⟨l1, q', l2, p', e1, e2, e3, e4⟩ | ⟨e1, e2⟩
      · refine Or.inl ⟨(H.mat, img) :: l1, q', l2, p', ?_, e2, e3, e4⟩
        rw [List.cons_append, ← e1]
        rfl
      · refine Or.inr ⟨?_, e2⟩
        intro q' hq'
        simp only [withMat, List.map_cons, List.mem_cons] at hq'
        rcases hq' with rfl | hq'
        · intro p' hp'
          have := huniq p' hp'.1
          subst this
          exact hc (hcov.mpr hp')
        · exact e1 q' hq'

/-- The panorama has the size of the box, and each of its pixels shows the last image with a point there, at the point it comes from, or
is black. -/
theorem c103_composite {junk : Nat → Byte} {pan : GImage Byte} {imgs : List (M3 Rat × GImage Byte)} {d : PanDims} (hw : pan.Wf)
    (hd : panDims imgs ⟨2147483647, 2147483647, -2147483648, -2147483648⟩ = .ok d) {w h : Nat} (ew : d.maxX - d.minX = w)
    (eh : d.maxY - d.minY = h) (hsz : w * h ≤ 2147483647) (hwb : w ≤ 2147483647) (hhb : h ≤ 2147483647)
    (hc : ∀ x y : Nat, x < w → y < h → ∀ q ∈ imgs, CanCompose ((x : Rat) + d.minX, (y : Rat) + d.minY) q) :
    ∃ out S, composite junk pan imgs = .ok out ∧ out.Wf ∧ out.Shows w h S ∧
      ∀ x y : Nat, x < w → y < h → Composed (withMat imgs) ((x : Rat) + d.minX, (y : Rat) + d.minY) (S x y) := by
  have key : ∀ x y : Nat, ∃ v, (x < w → y < h → compositeValue x y (imgs.map (backOf d.minX d.minY)) 0 = .ok v ∧
      Composed (withMat imgs) ((x : Rat) + d.minX, (y : Rat) + d.minY) v) := by
    intro x y
    by_cases hx : x < w ∧ y < h
    · obtain ⟨v, e, hv⟩ := value_spec imgs (hc x y hx.1 hx.2) 0
      exact ⟨v, fun _ _ => ⟨e, hv⟩⟩
    · exact ⟨0, fun h1 h2 => absurd ⟨h1, h2⟩ hx⟩
  choose S hS using key
  obtain ⟨r, er, r1, r2, r3, r4⟩ := gResize_ok (junk := junk) (st := 0) hw hsz (Nat.zero_le _)
  have ecr : createReference junk pan imgs = .ok (r, imgs.map (backOf d.minX d.minY)) := by
    unfold createReference subInt
    rw [hd]
    simp only [Res.ok_bind]
    rw [ew, eh, if_pos (by unfold InI32; omega), if_pos (by unfold InI32; omega)]
    simp only [Res.ok_bind]
    rw [if_neg (by omega), Int.toNat_natCast, Int.toNat_natCast, er]
    rfl
  obtain ⟨l, el, hF⟩ := fill_spec (st := r.stride) (H := h) (w := w) (f := S) (d0 := r.data)
    (body := fun y x l => compositeBody (imgs.map (backOf d.minX d.minY)) r.stride y x l) (by omega) (by rw [r4, r3]) (by
      intro y x l hy hx hl
      unfold compositeBody
      rw [(hS x y hx hy).1]
      simp only [Res.ok_bind]
      exact writeAt_ok _ (by rw [hl]; exact pixIdx_lt (by omega) hy))
  refine ⟨{ r with data := l }, S, ?_, ⟨?_, ?_⟩, ?_, fun x y hx hy => (hS x y hx hy).2⟩
  · unfold composite
    rw [ecr]
    simp only [Res.ok_bind]
    rw [r1, r2, el]
    rfl
  · simp only
    omega
  · simp only
    rw [hF.1, r2]
  · exact shows_of_filled r1 r2 hF

theorem compositeValue_not_fatal (x y : Nat) : ∀ (imgs : List (M3 Rat × GImage Byte)) (v : Byte), compositeValue x y imgs v ≠ .fatal := by
  intro imgs
  induction imgs with
  | nil => intro v h; cases h
  | cons q imgs ih =>
    intro v h
    obtain ⟨H, img⟩ := q
    unfold compositeValue at h
    cases e : (transferFwd H ((x : Rat), (y : Rat))).1 with
    | none => rw [e] at h; cases h
    | some p =>
      rw [e] at h
      simp only [truncInt, compositeSample] at h
      split at h
      · simp only [Res.ok_bind] at h
        split at h
        · simp only [Res.ok_bind] at h
          unfold readI readAt at h
          repeat' split at h
          all_goals first
            | exact ih _ h
            | cases h
        · cases h
      · cases h

theorem compositeValue_singular (x y : Nat) : ∀ (imgs : List (M3 Rat × GImage Byte)) (v : Byte), (∃ q ∈ imgs, q.1 = dmat3SetZero) →
    compositeValue x y imgs v = .ub := by
  intro imgs v h
  have : ∀ u, compositeValue x y imgs v ≠ .ok u := by
    induction imgs generalizing v with
    | nil => obtain ⟨q, hq, -⟩ := h; simp at hq
    | cons q imgs ih =>
      intro u hu
      obtain ⟨q', hq', hz⟩ := h
      obtain ⟨H, img⟩ := q
      unfold compositeValue at hu
      rw [List.mem_cons] at hq'
      rcases hq' with rfl | hq'
      · simp only at hz
        subst hz
        simp [transferFwd, dmat3SetZero] at hu
      · cases e : (transferFwd H ((x : Rat), (y : Rat))).1 with
        | none => rw [e] at hu; cases hu
        | some p =>
          rw [e] at hu
          simp only at hu
          rw [Res.bind_eq_ok] at hu
          obtain ⟨xi, -, hu⟩ := hu
          rw [Res.bind_eq_ok] at hu
          obtain ⟨yi, -, hu⟩ := hu
          rw [Res.bind_eq_ok] at hu
          obtain ⟨v', -, hu⟩ := hu
          exact ih v' ⟨q', hq', hz⟩ u hu
  cases e : compositeValue x y imgs v with
  | ok u => exact absurd e (this u)
  | fatal => exact absurd e (compositeValue_not_fatal x y imgs v)
  | ub => rfl

/-- If the matrix of an image is singular, its inverse is set to zero, and the division of zero by zero is converted to `int`. -/
theorem c103_singular {junk : Nat → Byte} {pan : GImage Byte} {imgs : List (M3 Rat × GImage Byte)}
    {r : GImage Byte × List (M3 Rat × GImage Byte)} (hr : createReference junk pan imgs = .ok r) (hw : 0 < r.1.width) (hh : 0 < r.1.height)
    {q : M3 Rat × GImage Byte} (hq : q ∈ imgs) (hd : q.1.mat.det = 0) : composite junk pan imgs = .ub := by
  have hz : ∃ b ∈ r.2, b.1 = dmat3SetZero := by
    unfold createReference at hr
    rw [Res.bind_eq_ok] at hr
    obtain ⟨d, -, hr⟩ := hr
    rw [Res.bind_eq_ok] at hr
    obtain ⟨w, -, hr⟩ := hr
    rw [Res.bind_eq_ok] at hr
    obtain ⟨h, -, hr⟩ := hr
    split at hr
    · cases hr
    · rw [Res.bind_eq_ok] at hr
      obtain ⟨p, -, hr⟩ := hr
      cases hr
      refine ⟨_, List.mem_map.mpr ⟨q, hq, rfl⟩, ?_⟩
      simp only
      apply mat_injective
      rw [(c57_inv_singular _ (by rw [shift_det]; exact hd)).1]
      ext i j
      fin_cases i <;> fin_cases j <;> simp [dmat3SetZero, M3.mat]
  unfold composite
  rw [hr]
  simp only [Res.ok_bind]
  have : forLoop r.1.height (fun y d => forLoop r.1.width (compositeBody r.2 r.1.stride y) 0 d) 0 r.1.data = .ub := by
    apply forLoop_ub hh
    apply forLoop_ub hw
    unfold compositeBody
    rw [compositeValue_singular 0 0 r.2 0 hz]
    rfl
  rw [this]
  rfl

/-! ## Examples -/

/-- A translation. -/
def moveBy (x y : Rat) : M3 Rat := ⟨1, 0, 0, 0, 1, 0, x, y, 1⟩

/-- Two images with an overlap of one column, where the second is shown. -/
def panPair : List (M3 Rat × GImage Byte) := [(dmat3Eye, ⟨2, 2, 2, [1, 2, 3, 4]⟩), (moveBy 1 0, ⟨2, 2, 2, [5, 6, 7, 8]⟩)]

example : composite (fun _ => 9) ⟨0, 0, 0, []⟩ panPair = .ok ⟨3, 2, 3, [1, 5, 6, 3, 7, 8]⟩ := by decide +kernel

theorem moveBy_projects (x y : Rat) (p : Rat × Rat) : Projects (moveBy x y).mat p (p.1 + x, p.2 + y) := by
  rw [projects_iff]
  simp [moveBy]

theorem moveBy_det (x y : Rat) : (moveBy x y).mat.det = 1 := by
  rw [← c57_det]
  simp [moveBy, dmat3Det]

/-- The hypotheses of `c103_composite` hold for the two images. -/
example : ∃ out S, composite (fun _ => 9) ⟨0, 0, 0, []⟩ [(moveBy 0 0, ⟨2, 2, 2, [1, 2, 3, 4]⟩), (moveBy 1 0, ⟨2, 2, 2, [5, 6, 7, 8]⟩)] = .ok out ∧
    out.Wf ∧ out.Shows 3 2 S := by
  obtain ⟨out, S, h1, h2, h3, -⟩ := c103_composite (junk := fun _ => 9) (pan := ⟨0, 0, 0, []⟩)
    (imgs := [(moveBy 0 0, ⟨2, 2, 2, [1, 2, 3, 4]⟩), (moveBy 1 0, ⟨2, 2, 2, [5, 6, 7, 8]⟩)]) (d := ⟨0, 0, 3, 2⟩) (w := 3) (h := 2)
    ⟨by decide, by decide⟩ (by decide +kernel) (by decide) (by decide) (by decide) (by decide) (by decide) (by
      intro x y hx hy q hq
      have hxq : (x : Rat) ≤ 3 := by exact_mod_cast hx.le
      have hyq : (y : Rat) ≤ 2 := by exact_mod_cast hy.le
      have hx0 : (0 : Rat) ≤ x := Nat.cast_nonneg _
      have hy0 : (0 : Rat) ≤ y := Nat.cast_nonneg _
      have key : ∀ (dx : Rat) (img : GImage Byte), 0 ≤ dx → dx ≤ 1 → img.Wf → 0 < img.width → 0 < img.height →
          CanCompose ((x : Rat) + ((0 : Int) : Rat), (y : Rat) + ((0 : Int) : Rat)) (moveBy dx 0, img) := by
        intro dx img h0 h1 hw w0 h0'
        refine ⟨hw, w0, h0', by rw [moveBy_det]; norm_num, ((x : Rat) - dx, (y : Rat)), ?_, ?_, ?_⟩
        · have := moveBy_projects dx 0 ((x : Rat) - dx, (y : Rat))
          simpa using this
        · simp only
          exact ⟨by linarith, by linarith⟩
        · simp only
          exact ⟨by linarith, by linarith⟩
      simp only [List.mem_cons, List.not_mem_nil, or_false] at hq
      rcases hq with rfl | rfl
      · exact key 0 _ (le_refl _) (by norm_num) ⟨by decide, by decide⟩ (by decide) (by decide)
      · exact key 1 _ (by norm_num) (le_refl _) ⟨by decide, by decide⟩ (by decide) (by decide))
  exact ⟨out, S, h1, h2, h3⟩

/-- Corners need not be in the panorama: an image moved by half a pixel to the left loses half of its width. -/
theorem c103_cut : ∃ q : M3 Rat × GImage Byte, CornersFit q ∧
    panDims [q] ⟨2147483647, 2147483647, -2147483648, -2147483648⟩ = .ok ⟨0, 0, 1, 2⟩ ∧ Projects q.1.mat (0, 0) (-1 / 2, 0) := by
  refine ⟨(moveBy (-1 / 2) 0, ⟨2, 2, 2, [1, 2, 3, 4]⟩), ?_, by decide +kernel, ?_⟩
  · intro c hc
    refine ⟨(c.1 + -1 / 2, c.2 + 0), moveBy_projects _ _ _, ?_⟩
    simp only [corners, List.mem_cons, List.not_mem_nil, or_false] at hc
    rcases hc with rfl | rfl | rfl | rfl <;> unfold IntRange <;> norm_num
  · have := moveBy_projects (-1 / 2) 0 (0, 0)
    norm_num at this ⊢
    exact this

/-- A position outside of an image, by half a pixel, shows it. -/
theorem c103_outside : compositeValue 0 0 [backOf 0 0 (moveBy (1 / 2) 0, ⟨2, 2, 2, [1, 2, 3, 4]⟩)] 0 = .ok 1 ∧
    Projects (moveBy (1 / 2) 0).mat (-1 / 2, 0) (0, 0) := by
  refine ⟨by decide +kernel, ?_⟩
  have := moveBy_projects (1 / 2) 0 (-1 / 2, 0)
  norm_num at this ⊢
  exact this

/-- The box of the two images. -/
example : panDims panPair ⟨2147483647, 2147483647, -2147483648, -2147483648⟩ = .ok ⟨0, 0, 3, 2⟩ := by decide +kernel

/-- A singular matrix that maps the image to a line: the panorama has pixels and its composition is undefined. -/
example : composite (fun _ => 9) ⟨0, 0, 0, []⟩ [(dmat3Eye, ⟨2, 2, 2, [1, 2, 3, 4]⟩), (⟨1, 0, 0, 0, 0, 0, 0, 0, 1⟩, ⟨2, 2, 2, [5, 6, 7, 8]⟩)] = .ub :=
  c103_singular (r := (⟨2, 2, 2, [9, 9, 9, 9]⟩, [(dmat3Eye, ⟨2, 2, 2, [1, 2, 3, 4]⟩), (dmat3SetZero, ⟨2, 2, 2, [5, 6, 7, 8]⟩)]))
    (by decide +kernel) (by decide) (by decide) (q := (⟨1, 0, 0, 0, 0, 0, 0, 0, 1⟩, ⟨2, 2, 2, [5, 6, 7, 8]⟩)) (by simp)
    (by rw [← c57_det]; simp [dmat3Det])

end Nx
