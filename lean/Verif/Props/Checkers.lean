import Verif.Model.Checkers
import Verif.Spec.Checkers
import Verif.Props.Warp
import Verif.Props.ImageFilter

/-! # C99: the detector of checkerboards -/

namespace Nx

/-- `S` is a rotated image of `f`: a pixel has the interpolated value of the source where it comes from, rounded down, or is black
if it comes from outside. -/
def Rotated (c cw : Rat) (dw dh sw sh : Nat) (f S : Nat → Nat → Byte) : Prop :=
  ∀ x y : Nat, x < dw → y < dh →
    (0 ≤ fromX c cw dw dh sw x y → fromX c cw dw dh sw x y < (sw : Rat) - 1 →
      0 ≤ fromY c cw dw dh sh x y → fromY c cw dw dh sh x y < (sh : Rat) - 1 →
      byteVal (S x y) ≤ bilinearAt (continued f Int.toNat Int.toNat) (fromX c cw dw dh sw x y) (fromY c cw dw dh sh x y) ∧
      bilinearAt (continued f Int.toNat Int.toNat) (fromX c cw dw dh sw x y) (fromY c cw dw dh sh x y) < byteVal (S x y) + 1) ∧
    (Outside sw (fromX c cw dw dh sw x y) ∨ Outside sh (fromY c cw dw dh sh x y) → S x y = 0)

/-- `M` has the means over `2r+1` neighbours in the rows of `f`, rounded down. -/
def RowMean (w h r : Nat) (f M : Nat → Nat → Byte) : Prop :=
  ∀ x y, x < w → y < h → byteVal (M x y) ≤ windowMean w r (fun i => byteVal (f i y)) x ∧
    windowMean w r (fun i => byteVal (f i y)) x < byteVal (M x y) + 1

/-- The same for columns. -/
def ColMean (w h r : Nat) (f M : Nat → Nat → Byte) : Prop :=
  ∀ x y, x < w → y < h → byteVal (M x y) ≤ windowMean h r (fun i => byteVal (f x i)) y ∧
    windowMean h r (fun i => byteVal (f x i)) y < byteVal (M x y) + 1

theorem windowMean_byte (n r : Nat) (s : Nat → Byte) (x : Nat) : 0 ≤ windowMean n r (fun i => byteVal (s i)) x ∧
    windowMean n r (fun i => byteVal (s i)) x ≤ 255 := by
  have h0 : (0 : Rat) < 2 * r + 1 := by positivity
  unfold windowMean
  constructor
  · apply div_nonneg _ h0.le
    exact Finset.sum_nonneg fun t _ => Nat.cast_nonneg _
  · rw [div_le_iff₀ h0]
    have : ∑ t ∈ Finset.range (2 * r + 1), byteVal (s (nearest n ((x : Int) + t - r))) ≤ ∑ _t ∈ Finset.range (2 * r + 1), (255 : Rat) := by
      apply Finset.sum_le_sum
      intro t _
      unfold byteVal
      have := (s (nearest n ((x : Int) + t - r))).toNat_lt
      have h2 : (s (nearest n ((x : Int) + t - r))).toNat ≤ 255 := by omega
      exact_mod_cast h2
    rw [Finset.sum_const, Finset.card_range, nsmul_eq_mul] at this
    push_cast at this
    linarith

section
variable {junk : Nat → Byte} {junkB : Nat → Rat} {dest : Option (GImage Byte)} {src : GImage Byte} {w h : Nat} {f : Nat → Nat → Byte}

theorem boxX_byte (hd : ∀ d, dest = some d → d.Wf) (hw : src.Wf) (hsz : w * h ≤ 2147483647)
    (hs : src.Shows w h f) (h2 : 2 ≤ w) {r : Nat} (hr : 1 ≤ r) {b : List Rat} (hb : w + 2 * r ≤ b.length) :
    ∃ b' d S, boxX byteVal storeByte junk junkB dest src r (some b) = .ok (b', d) ∧ d.Wf ∧ d.Shows w h S ∧ b'.length = b.length ∧
      RowMean w h r f S := by
  have key : ∀ x y : Nat, ∃ c, storeByte (windowMean w r (fun i => byteVal (f i y)) x) = .ok c ∧
      (c.toNat : Rat) ≤ windowMean w r (fun i => byteVal (f i y)) x ∧ windowMean w r (fun i => byteVal (f i y)) x < c.toNat + 1 := fun x y =>
    storeByte_spec (windowMean_byte w r (fun i => f i y) x).1 (windowMean_byte w r (fun i => f i y) x).2
  choose S hS1 hS2 hS3 using key
  obtain ⟨b', d, e, q1, q2, q3, -⟩ := c77_box_x (junk := junk) (junkB := junkB) (conv := byteVal) (store := storeByte) hd hw hsz hs h2 hr
    (buffer := some b) (by intro b' e; cases e; exact hb) (S := S) (fun x y _ _ => hS1 x y)
  exact ⟨b', d, S, e, q1, q2, q3 b rfl, fun x y _ _ => ⟨hS2 x y, hS3 x y⟩⟩

theorem boxY_byte (hd : ∀ d, dest = some d → d.Wf) (hw : src.Wf) (hsz : w * h ≤ 2147483647)
    (hs : src.Shows w h f) (h2 : 2 ≤ h) {r : Nat} (hr : 1 ≤ r) {b : List Rat} (hb : h + 2 * r ≤ b.length) :
    ∃ b' d S, boxY byteVal storeByte junk junkB dest src r (some b) = .ok (b', d) ∧ d.Wf ∧ d.Shows w h S ∧ b'.length = b.length ∧
      ColMean w h r f S := by
  have key : ∀ x y : Nat, ∃ c, storeByte (windowMean h r (fun i => byteVal (f x i)) y) = .ok c ∧
      (c.toNat : Rat) ≤ windowMean h r (fun i => byteVal (f x i)) y ∧ windowMean h r (fun i => byteVal (f x i)) y < c.toNat + 1 := fun x y =>
    storeByte_spec (windowMean_byte h r (fun i => f x i) y).1 (windowMean_byte h r (fun i => f x i) y).2
  choose S hS1 hS2 hS3 using key
  obtain ⟨b', d, e, q1, q2, q3, -⟩ := c77_box_y (junk := junk) (junkB := junkB) (conv := byteVal) (store := storeByte) hd hw hsz hs h2 hr
    (buffer := some b) (by intro b' e; cases e; exact hb) (S := S) (fun x y _ _ => hS1 x y)
  exact ⟨b', d, S, e, q1, q2, q3 b rfl, fun x y _ _ => ⟨hS2 x y, hS3 x y⟩⟩

theorem rotateT_pos (c cw : Rat) (dw dh sw sh : Nat) (x y : Rat) :
    y * rotateT c cw dw dh sw sh 3 + rotateT c cw dw dh sw sh 6 + x * rotateT c cw dw dh sw sh 0 = fromX c cw dw dh sw x y ∧
    y * rotateT c cw dw dh sw sh 4 + rotateT c cw dw dh sw sh 7 + x * rotateT c cw dw dh sw sh 1 = fromY c cw dw dh sh x y := by
  simp only [rotateT, fromX, fromY]
  constructor <;> ring

theorem rot_fits {c cw : Rat} (hc0 : 0 ≤ c) (hc1 : c ≤ 1) (hcw : cw = 1 ∨ cw = -1) {dw dh sw sh x y : Nat} (hdw : dw ≤ 200000000)
    (hdh : dh ≤ 200000000) (hsw : sw ≤ 200000000) (hsh : sh ≤ 200000000) (hx : x < dw) (hy : y < dh) :
    IntRange (fromX c cw dw dh sw x y) ∧ IntRange (fromY c cw dw dh sh x y) := by
  have a1 : (dw : Rat) ≤ 200000000 := by exact_mod_cast hdw
  have a2 : (dh : Rat) ≤ 200000000 := by exact_mod_cast hdh
  have a3 : (sw : Rat) ≤ 200000000 := by exact_mod_cast hsw
  have a4 : (sh : Rat) ≤ 200000000 := by exact_mod_cast hsh
  have a5 : (x : Rat) < dw := by exact_mod_cast hx
  have a6 : (y : Rat) < dh := by exact_mod_cast hy
  have p1 : (0 : Rat) ≤ x := by positivity
  have p2 : (0 : Rat) ≤ y := by positivity
  have p3 : (0 : Rat) ≤ sw := by positivity
  have p4 : (0 : Rat) ≤ sh := by positivity
  have key : ∀ u : Rat, -400000000 ≤ u → u ≤ 400000000 → -400000000 ≤ c * u ∧ c * u ≤ 400000000 := by
    intro u h1 h2
    constructor <;> nlinarith
  unfold IntRange fromX fromY
  rcases hcw with rfl | rfl
  · have k1 := key ((x - dw / 2) + 1 * (y - dh / 2)) (by linarith) (by linarith)
    have k2 := key ((y - dh / 2) - 1 * (x - dw / 2)) (by linarith) (by linarith)
    refine ⟨⟨?_, ?_⟩, ?_, ?_⟩ <;> linarith
  · have k1 := key ((x - dw / 2) + -1 * (y - dh / 2)) (by linarith) (by linarith)
    have k2 := key ((y - dh / 2) - -1 * (x - dw / 2)) (by linarith) (by linarith)
    refine ⟨⟨?_, ?_⟩, ?_, ?_⟩ <;> linarith

/-- Rotation of an image. -/
theorem rotate_spec {c : Rat} (hc0 : 0 ≤ c) (hc1 : c ≤ 1) (cw : Bool) {d : GImage Byte} (hd : d.Wf) (hs : src.Shows w h f) (hw : 0 < w)
    (hh : 0 < h) (h1 : d.width ≤ 200000000) (h2 : d.height ≤ 200000000) (h3 : w ≤ 200000000) (h4 : h ≤ 200000000) :
    ∃ d' S, rotate45Uc c cw d src = .ok d' ∧ d'.Wf ∧ d'.Shows d.width d.height S ∧
      Rotated c (if cw then 1 else -1) d.width d.height w h f S := by
  have hcw : (if cw = true then (1 : Rat) else -1) = 1 ∨ (if cw = true then (1 : Rat) else -1) = -1 := by cases cw <;> simp
  have key : ∀ x y : Nat, ∃ b, x < d.width → y < d.height → warpPixel .black w h src.data src.stride
      (fromX c (if cw then 1 else -1) d.width d.height w x y) (fromY c (if cw then 1 else -1) d.width d.height h x y) 0 = .ok b := by
    intro x y
    by_cases hxy : x < d.width ∧ y < d.height
    · obtain ⟨f1, f2⟩ := rot_fits hc0 hc1 hcw (sw := w) (sh := h) h1 h2 h3 h4 hxy.1 hxy.2
      obtain ⟨b, hb⟩ := c78_safe (mode := .black) (s := 0) (by simp) hs hw hh f1 f2 (by norm_num)
      exact ⟨b, fun _ _ => hb⟩
    · exact ⟨0, fun a b => absurd ⟨a, b⟩ hxy⟩
  choose S hS using key
  obtain ⟨d', e, q1, q2⟩ := c78_rotate (c := c) (cw := cw) (dest := d) (src := src) hd (S := S) (by
    intro x y hx hy
    simp only
    rw [hs.width_eq, hs.height_eq, (rotateT_pos c _ d.width d.height w h x y).1, (rotateT_pos c _ d.width d.height w h x y).2]
    exact hS x y hx hy)
  refine ⟨d', S, e, q1, q2, ?_⟩
  intro x y hx hy
  obtain ⟨f1, f2⟩ := rot_fits hc0 hc1 hcw (sw := w) (sh := h) h1 h2 h3 h4 hx hy
  refine ⟨?_, ?_⟩
  · intro k1 k2 k3 k4
    obtain ⟨b, e1, e2⟩ := c78_inside (mode := .black) (s := 0) hs (by omega) (by omega) k1 k2 k3 k4
    rw [hS x y hx hy] at e1
    cases e1
    exact e2
  · intro ho
    have := (c78_background (s := 0) hw hh f1 f2 ho src.data src.stride).1
    rw [hS x y hx hy] at this
    exact Res.ok.inj this

end

section
variable {c s : Rat} {junk : Nat → Byte} {junkB : Nat → Rat} {lr : Fin 4 → Option (GImage Byte)} {img : GImage Byte}
  {w h n r : Nat} {f : Nat → Nat → Byte}

theorem noImage_wf {α : Type} : (noImage : GImage α).Wf := ⟨Nat.le_refl _, rfl⟩

theorem getD_wf {o : Option (GImage Byte)} (h : ∀ l, o = some l → l.Wf) : (o.getD noImage).Wf := by
  cases o with
  | none => exact noImage_wf
  | some l => exact h l rfl

theorem side_eq {a : Nat} (hs : 0 < s) (h1 : n * s ≤ (a : Rat)) (h2 : (a : Rat) < (n + 1) * s) :
    (ratTrunc ((a : Rat) / s)).toNat = n := by
  rw [ratTrunc_nonneg (div_nonneg (Nat.cast_nonneg _) hs.le)]
  have : ⌊(a : Rat) / s⌋ = (n : Int) := by
    rw [Int.floor_eq_iff]
    push_cast
    exact ⟨(le_div_iff₀ hs).mpr h1, (div_lt_iff₀ hs).mpr h2⟩
  rw [this]
  rfl

/-- C99. The four images: means along rows, along columns and, after a rotation by an eighth of a turn to either side, along rows,
rotated back. `n` is the side of the rotated images. -/
theorem c99_radon (hc0 : 0 ≤ c) (hc1 : c ≤ 1) (hs1 : 1 ≤ s) (hs2 : s ≤ 2) (hn1 : n * s ≤ ((w + h + 2 : Nat) : Rat))
    (hn2 : ((w + h + 2 : Nat) : Rat) < (n + 1) * s) (hn : n * n ≤ 2147483647) (hw : 2 ≤ w) (hh : 2 ≤ h) (hr : 1 ≤ r)
    (hi : img.Wf) (hf : img.Shows w h f) (hl : ∀ i l, lr i = some l → l.Wf) :
    ∃ out, checkersRadon c s junk junkB lr img r = .ok out ∧ (∀ i, (out i).Wf) ∧ ∃ L : Fin 4 → Nat → Nat → Byte,
      (∀ i, (out i).Shows w h (L i)) ∧ RowMean w h r f (L 0) ∧ ColMean w h r f (L 1) ∧
      (∃ T M, Rotated c 1 n n w h f T ∧ RowMean n n r T M ∧ Rotated c (-1) w h n n M (L 2)) ∧
      (∃ T M, Rotated c (-1) n n w h f T ∧ RowMean n n r T M ∧ Rotated c 1 w h n n M (L 3)) := by
  have hn3 : n < 46341 := by
    by_contra hc
    have : 46341 * 46341 ≤ n * n := Nat.mul_le_mul (by omega) (by omega)
    omega
  have hlt : w + h < 2 * n := by
    have : ((w + h + 2 : Nat) : Rat) < ((2 * n + 2 : Nat) : Rat) := by
      push_cast at hn2 ⊢
      have : (0 : Rat) ≤ n := by positivity
      nlinarith
    have := Nat.cast_lt.mp this
    omega
  have hwh : w * h ≤ 2147483647 := by
    have : w * h ≤ n * n := by
      rcases Nat.le_total w h with hle | hle
      · obtain ⟨k, rfl⟩ := Nat.exists_eq_add_of_le hle
        nlinarith
      · obtain ⟨k, rfl⟩ := Nat.exists_eq_add_of_le hle
        nlinarith
    omega
  obtain ⟨l0, e0, a0, b0, s0, t0⟩ := gResize_ok (junk := junk) (st := 0) (getD_wf (hl 0)) hwh (Nat.zero_le _)
  obtain ⟨l1, e1, a1, b1, s1, t1⟩ := gResize_ok (junk := junk) (st := 0) (getD_wf (hl 1)) hwh (Nat.zero_le _)
  obtain ⟨l2, e2, a2, b2, s2, t2⟩ := gResize_ok (junk := junk) (st := 0) (getD_wf (hl 2)) hwh (Nat.zero_le _)
  obtain ⟨l3, e3, a3, b3, s3, t3⟩ := gResize_ok (junk := junk) (st := 0) (getD_wf (hl 3)) hwh (Nat.zero_le _)
  obtain ⟨t, et, at', bt, st, tt⟩ := gResize_ok (junk := junk) (st := 0) (w := n) (h := n) (noImage_wf (α := Byte)) hn (Nat.zero_le _)
  have wf0 : l0.Wf := ⟨by omega, by rw [t0, s0, b0]⟩
  have wf1 : l1.Wf := ⟨by omega, by rw [t1, s1, b1]⟩
  have wf2 : l2.Wf := ⟨by omega, by rw [t2, s2, b2]⟩
  have wf3 : l3.Wf := ⟨by omega, by rw [t3, s3, b3]⟩
  have wft : t.Wf := ⟨by omega, by rw [tt, st, bt]⟩
  have hlen : (filterBuffer (max n (max w h)) r junkB).length = max n (max w h) + 2 * r := by simp [filterBuffer]
  obtain ⟨q0, d0, S0, x0, y0, z0, u0, v0⟩ := boxX_byte (junk := junk) (junkB := junkB) (dest := some l0) (by intro d e; cases e; exact wf0)
    hi hwh hf hw hr (b := filterBuffer (max n (max w h)) r junkB) (by omega)
  obtain ⟨q1, d1, S1, x1, y1, z1, u1, v1⟩ := boxY_byte (junk := junk) (junkB := junkB) (dest := some l1) (by intro d e; cases e; exact wf1)
    hi hwh hf hh hr (b := q0) (by omega)
  obtain ⟨t2', T2, x2, y2, z2, u2⟩ := rotate_spec hc0 hc1 true wft hf (by omega) (by omega) (by omega) (by omega) (by omega) (by omega)
  rw [at', bt] at z2 u2
  obtain ⟨q2, d2, M2, x3, y3, z3, u3, v3⟩ := boxX_byte (junk := junk) (junkB := junkB) (dest := none) (by intro d e; cases e)
    y2 hn z2 (by omega) hr (b := q1) (by omega)
  obtain ⟨l2', S2, x4, y4, z4, u4⟩ := rotate_spec hc0 hc1 false wf2 z3 (by omega) (by omega) (by omega) (by omega) (by omega) (by omega)
  rw [a2, b2] at z4 u4
  obtain ⟨t3', T3, x5, y5, z5, u5⟩ := rotate_spec hc0 hc1 false y3 hf (by omega) (by omega) (by rw [z3.width_eq]; omega)
    (by rw [z3.height_eq]; omega) (by omega) (by omega)
  rw [z3.width_eq, z3.height_eq] at z5 u5
  obtain ⟨q3, d3, M3, x6, y6, z6, u6, v6⟩ := boxX_byte (junk := junk) (junkB := junkB) (dest := none) (by intro d e; cases e)
    y5 hn z5 (by omega) hr (b := q2) (by omega)
  obtain ⟨l3', S3, x7, y7, z7, u7⟩ := rotate_spec hc0 hc1 true wf3 z6 (by omega) (by omega) (by omega) (by omega) (by omega) (by omega)
  rw [a3, b3] at z7 u7
  refine ⟨fun | 0 => d0 | 1 => d1 | 2 => l2' | 3 => l3', ?_, ?_, fun | 0 => S0 | 1 => S1 | 2 => S2 | 3 => S3, ?_, v0, v1,
    ⟨T2, M2, by simpa using u2, v3, by simpa using u4⟩, ⟨T3, M3, by simpa using u5, v6, by simpa using u7⟩⟩
  · unfold checkersRadon
    rw [hf.width_eq, hf.height_eq, e0]
    simp only [Res.ok_bind]
    rw [e1]
    simp only [Res.ok_bind]
    rw [e2]
    simp only [Res.ok_bind]
    rw [e3]
    simp only [Res.ok_bind]
    rw [if_neg (by omega), side_eq (by linarith) hn1 hn2, x0]
    simp only [Res.ok_bind]
    rw [x1]
    simp only [Res.ok_bind]
    rw [et]
    simp only [Res.ok_bind]
    rw [x2]
    simp only [Res.ok_bind]
    rw [x3]
    simp only [Res.ok_bind]
    rw [x4]
    simp only [Res.ok_bind]
    rw [x5]
    simp only [Res.ok_bind]
    rw [x6]
    simp only [Res.ok_bind]
    rw [x7]
    rfl
  · intro i
    match i with
    | 0 => exact y0
    | 1 => exact y1
    | 2 => exact y4
    | 3 => exact y7
  · intro i
    match i with
    | 0 => exact z0
    | 1 => exact z1
    | 2 => exact z4
    | 3 => exact z7

/-- C99. An image whose rotated version has more samples than an `int` counts is not processed: the size overflows. -/
theorem c99_radon_big (hs1 : 1 ≤ s) (hn1 : n * s ≤ ((w + h + 2 : Nat) : Rat)) (hn2 : ((w + h + 2 : Nat) : Rat) < (n + 1) * s)
    (hn : 2147483647 < n * n) (hw : 2 ≤ w) (hh : 2 ≤ h) (hr : 1 ≤ r)
    (hi : img.Wf) (hf : img.Shows w h f) (hl : ∀ i l, lr i = some l → l.Wf) (hwh : w * h ≤ 2147483647) :
    checkersRadon c s junk junkB lr img r = .ub := by
  obtain ⟨l0, e0, a0, b0, s0, t0⟩ := gResize_ok (junk := junk) (st := 0) (getD_wf (hl 0)) hwh (Nat.zero_le _)
  obtain ⟨l1, e1, a1, b1, s1, t1⟩ := gResize_ok (junk := junk) (st := 0) (getD_wf (hl 1)) hwh (Nat.zero_le _)
  obtain ⟨l2, e2, a2, b2, s2, t2⟩ := gResize_ok (junk := junk) (st := 0) (getD_wf (hl 2)) hwh (Nat.zero_le _)
  obtain ⟨l3, e3, a3, b3, s3, t3⟩ := gResize_ok (junk := junk) (st := 0) (getD_wf (hl 3)) hwh (Nat.zero_le _)
  have wf0 : l0.Wf := ⟨by omega, by rw [t0, s0, b0]⟩
  have wf1 : l1.Wf := ⟨by omega, by rw [t1, s1, b1]⟩
  have hlen : (filterBuffer (max n (max w h)) r junkB).length = max n (max w h) + 2 * r := by simp [filterBuffer]
  obtain ⟨q0, d0, S0, x0, y0, z0, u0, v0⟩ := boxX_byte (junk := junk) (junkB := junkB) (dest := some l0) (by intro d e; cases e; exact wf0)
    hi hwh hf hw hr (b := filterBuffer (max n (max w h)) r junkB) (by omega)
  obtain ⟨q1, d1, S1, x1, y1, z1, u1, v1⟩ := boxY_byte (junk := junk) (junkB := junkB) (dest := some l1) (by intro d e; cases e; exact wf1)
    hi hwh hf hh hr (b := q0) (by omega)
  have hsum : w + h + 2 ≤ 2147483647 := by
    obtain ⟨a, rfl⟩ := Nat.exists_eq_add_of_le hw
    obtain ⟨b, rfl⟩ := Nat.exists_eq_add_of_le hh
    have e : (2 + a) * (2 + b) = a * b + 2 * a + 2 * b + 4 := by ring
    have := Nat.zero_le (a * b)
    omega
  have hn0 : n ≠ 0 := by
    intro e
    rw [e] at hn
    exact Nat.not_lt_zero _ hn
  have et : gResize junk noImage n n 0 = .ub := by
    unfold gResize noImage
    rw [if_neg (by rintro ⟨e, -⟩; exact hn0 e.symm)]
    simp only
    rw [if_pos (Nat.pos_of_ne_zero hn0), if_neg (Nat.not_le.mpr hn)]
  unfold checkersRadon
  rw [hf.width_eq, hf.height_eq, e0]
  simp only [Res.ok_bind]
  rw [e1]
  simp only [Res.ok_bind]
  rw [e2]
  simp only [Res.ok_bind]
  rw [e3]
  simp only [Res.ok_bind]
  rw [if_neg (by omega), side_eq (by linarith) hn1 hn2, x0]
  simp only [Res.ok_bind]
  rw [x1]
  simp only [Res.ok_bind]
  rw [et]
  rfl

end

/-- C99. A rotation and the rotation to the other side keep the centre and stretch by `2 c²` about it. -/
theorem c99_back (c cw : Rat) (hcw : cw = 1 ∨ cw = -1) (w h n : Nat) (x y : Rat) :
    fromX c cw n n w (fromX c (-cw) w h n x y) (fromY c (-cw) w h n x y) = w / 2 + 2 * c ^ 2 * (x - w / 2) ∧
    fromY c cw n n h (fromX c (-cw) w h n x y) (fromY c (-cw) w h n x y) = h / 2 + 2 * c ^ 2 * (y - h / 2) := by
  unfold fromX fromY
  rcases hcw with rfl | rfl <;> constructor <;> ring

/-- C99. The square covers the rotated image: each of its points has a position between the borders. -/
theorem c99_cover {c s cw : Rat} (hcw : cw = 1 ∨ cw = -1) (hcs : c * s ≤ 1) (hc : 1 / 2 ≤ c) {w h n : Nat}
    (hn : ((w + h + 2 : Nat) : Rat) < (n + 1) * s) {x y : Rat} (hx0 : 0 ≤ x) (hx1 : x ≤ w) (hy0 : 0 ≤ y) (hy1 : y ≤ h) :
    0 ≤ fromX c (-cw) w h n x y ∧ fromX c (-cw) w h n x y ≤ n ∧ 0 ≤ fromY c (-cw) w h n x y ∧ fromY c (-cw) w h n x y ≤ n := by
  have h1 : c * ((w : Rat) + h) ≤ n := by
    have : c * ((w + h + 2 : Nat) : Rat) < c * ((n + 1) * s) := mul_lt_mul_of_pos_left hn (by linarith)
    have h2 : c * ((n + 1) * s) ≤ n + 1 := by
      have : (0 : Rat) ≤ n + 1 := by positivity
      nlinarith
    push_cast at this
    linarith
  have key : ∀ u : Rat, -((w : Rat) + h) / 2 ≤ u → u ≤ ((w : Rat) + h) / 2 → -(n : Rat) / 2 ≤ c * u ∧ c * u ≤ (n : Rat) / 2 := by
    intro u h2 h3
    constructor <;> nlinarith
  unfold fromX fromY
  rcases hcw with rfl | rfl
  · have k1 := key ((x - w / 2) + -1 * (y - h / 2)) (by linarith) (by linarith)
    have k2 := key ((y - h / 2) - -1 * (x - w / 2)) (by linarith) (by linarith)
    refine ⟨?_, ?_, ?_, ?_⟩ <;> linarith
  · have k1 := key ((x - w / 2) + -(-1) * (y - h / 2)) (by linarith) (by linarith)
    have k2 := key ((y - h / 2) - -(-1) * (x - w / 2)) (by linarith) (by linarith)
    refine ⟨?_, ?_, ?_, ?_⟩ <;> linarith

/-! ## The score -/

theorem checkersPixel_eq (v : Fin 4 → Byte) : checkersPixel (v 0) (v 1) (v 2) (v 3) = spread (fun i => (v i).toNat) ^ 2 := by
  have e1 : Finset.univ.sup' ⟨0, Finset.mem_univ _⟩ (fun i => (v i).toNat) =
      max (max (v 0).toNat (v 1).toNat) (max (v 2).toNat (v 3).toNat) := by
    apply le_antisymm
    · apply Finset.sup'_le
      intro i _
      match i with
      | 0 => simp
      | 1 => simp
      | 2 => simp
      | 3 => simp
    · simp only [max_le_iff]
      exact ⟨⟨Finset.le_sup' (fun i => (v i).toNat) (Finset.mem_univ 0), Finset.le_sup' (fun i => (v i).toNat) (Finset.mem_univ 1)⟩,
        Finset.le_sup' (fun i => (v i).toNat) (Finset.mem_univ 2), Finset.le_sup' (fun i => (v i).toNat) (Finset.mem_univ 3)⟩
  have e2 : Finset.univ.inf' ⟨0, Finset.mem_univ _⟩ (fun i => (v i).toNat) =
      min (min (v 0).toNat (v 1).toNat) (min (v 2).toNat (v 3).toNat) := by
    apply le_antisymm
    · simp only [le_min_iff]
      exact ⟨⟨Finset.inf'_le (fun i => (v i).toNat) (Finset.mem_univ 0), Finset.inf'_le (fun i => (v i).toNat) (Finset.mem_univ 1)⟩,
        Finset.inf'_le (fun i => (v i).toNat) (Finset.mem_univ 2), Finset.inf'_le (fun i => (v i).toNat) (Finset.mem_univ 3)⟩
    · apply Finset.le_inf'
      intro i _
      match i with
      | 0 => simp
      | 1 => simp
      | 2 => simp
      | 3 => simp
  unfold spread
  rw [e1, e2]
  simp only [checkersPixel]
  ring

theorem spread_range (v : Fin 4 → Byte) : 0 ≤ spread (fun i => (v i).toNat) ∧ spread (fun i => (v i).toNat) ≤ 1 := by
  have h1 : Finset.univ.inf' ⟨0, Finset.mem_univ _⟩ (fun i => (v i).toNat) ≤ Finset.univ.sup' ⟨0, Finset.mem_univ _⟩ (fun i => (v i).toNat) :=
    le_trans (Finset.inf'_le _ (Finset.mem_univ 0)) (Finset.le_sup' (fun i => (v i).toNat) (Finset.mem_univ 0))
  have h2 : Finset.univ.sup' ⟨0, Finset.mem_univ _⟩ (fun i => (v i).toNat) ≤ 255 := by
    apply Finset.sup'_le
    intro i _
    have := (v i).toNat_lt
    omega
  have h1' : ((Finset.univ.inf' ⟨0, Finset.mem_univ _⟩ (fun i => (v i).toNat) : Nat) : Rat) ≤
    (Finset.univ.sup' ⟨0, Finset.mem_univ _⟩ (fun i => (v i).toNat) : Nat) := Nat.cast_le.mpr h1
  have h2' : ((Finset.univ.sup' ⟨0, Finset.mem_univ _⟩ (fun i => (v i).toNat) : Nat) : Rat) ≤ 255 := by exact_mod_cast h2
  have h3' : (0 : Rat) ≤ ((Finset.univ.inf' ⟨0, Finset.mem_univ _⟩ (fun i => (v i).toNat) : Nat) : Rat) := Nat.cast_nonneg _
  unfold spread
  constructor
  · apply div_nonneg _ (by norm_num)
    linarith
  · rw [div_le_iff₀ (by norm_num)]
    linarith

section
variable {g junk junkB : Nat → Rat} {score : GImage Rat} {lr : Fin 4 → GImage Byte} {w h : Nat} {f : Fin 4 → Nat → Nat → Byte}

/-- C99. The score is the square of the spread of the four images, smoothed in both directions with a Gaussian kernel of nine weights. -/
theorem c99_score (hl : ∀ i, (lr i).Shows w h (f i)) (hsw : score.Wf) (hw : 2 ≤ w) (hh : 2 ≤ h) (hwh : w * h ≤ 2147483647)
    (hg0 : 0 < g 0) (hg : ∀ j, 0 ≤ g j) :
    ∃ d wx wy, checkersScore g junk junkB score lr = .ok d ∧ d.Wf ∧ Gaussian 4 g wx ∧ Gaussian 4 g wy ∧
      d.Shows w h (fun x y => windowSum h 4 wy (fun j => windowSum w 4 wx (fun i => spread (fun k => (f k i j).toNat) ^ 2) x) y) := by
  obtain ⟨d, ed, a, b, st, len⟩ := gResize_ok (junk := junk) (st := 0) hsw hwh (Nat.zero_le _)
  obtain ⟨d', e, hF⟩ := fill_spec (st := d.stride) (H := h) (w := w) (f := fun x y => spread (fun k => (f k x y).toNat) ^ 2) (d0 := d.data)
    (body := fun y x d' => do
      let v0 ← readAt (lr 0).data (y * (lr 0).stride + x)
      let v1 ← readAt (lr 1).data (y * (lr 1).stride + x)
      let v2 ← readAt (lr 2).data (y * (lr 2).stride + x)
      let v3 ← readAt (lr 3).data (y * (lr 3).stride + x)
      writeAt d' (y * d.stride + x) (checkersPixel v0 v1 v2 v3)) (by omega) (by rw [len, st]) (by
      intro y x d' hy hx hd'
      have rd : ∀ i, readAt (lr i).data (y * (lr i).stride + x) = .ok (f i x y) := by
        intro i
        have : (lr i).data[y * (lr i).stride + x]? = some (f i x y) := (hl i).pixel_eq x y hx hy
        unfold readAt
        rw [this]
      rw [rd 0, rd 1, rd 2, rd 3]
      simp only [Res.ok_bind]
      rw [checkersPixel_eq (fun i => f i x y)]
      exact writeAt_ok _ (by rw [hd']; exact pixIdx_lt (by omega) hy))
  have hS := shows_of_filled (img := d) a b hF
  obtain ⟨b', o, wx, wy, es, q1, g1, g2, q2⟩ := c77_smooth (junk := junk) (junkB := junkB) (dest := none) (by intro d e; cases e)
    (src := { d with data := d' }) ⟨by show d.width ≤ d.stride; omega, by show d'.length = d.stride * d.height; rw [hF.1, b]⟩ hwh hS hw hh
    (tx := 8) (ty := 8) (by norm_num) (by norm_num) hg0 hg hg0 hg (buffer := none) (by intro b h; cases h)
  refine ⟨o, wx, wy, ?_, q1, g1, g2, q2⟩
  unfold checkersScore
  simp only at e ⊢
  rw [(hl 0).width_eq, (hl 0).height_eq, ed]
  simp only [Res.ok_bind]
  rw [e]
  simp only [Res.ok_bind]
  rw [es]
  rfl

/-- C99. Scores are between zero and one. -/
theorem c99_score_range (hl : ∀ i, (lr i).Shows w h (f i)) (hsw : score.Wf) (hw : 2 ≤ w) (hh : 2 ≤ h) (hwh : w * h ≤ 2147483647)
    (hg0 : 0 < g 0) (hg : ∀ j, 0 ≤ g j) :
    ∃ d S, checkersScore g junk junkB score lr = .ok d ∧ d.Shows w h S ∧ ∀ x y, x < w → y < h → 0 ≤ S x y ∧ S x y ≤ 1 := by
  obtain ⟨d, wx, wy, e, _, g1, g2, q⟩ := c99_score (junk := junk) (junkB := junkB) hl hsw hw hh hwh hg0 hg
  refine ⟨d, _, e, q, ?_⟩
  intro x y _ _
  have key : ∀ i j, 0 ≤ spread (fun k => (f k i j).toNat) ^ 2 ∧ spread (fun k => (f k i j).toNat) ^ 2 ≤ 1 := by
    intro i j
    obtain ⟨h1, h2⟩ := spread_range (fun k => f k i j)
    exact ⟨by positivity, by nlinarith⟩
  constructor
  · exact windowSum_ge (by omega) g2.nonneg g2.normal (fun j _ => windowSum_ge (by omega) g1.nonneg g1.normal
      (fun i _ => (key i j).1) x) y
  · exact windowSum_le (by omega) g2.nonneg g2.normal (fun j _ => windowSum_le (by omega) g1.nonneg g1.normal
      (fun i _ => (key i j).2) x) y

/-- C99. Where the four images agree everywhere the score is zero. -/
theorem c99_score_flat {F : Nat → Nat → Byte} (hl : ∀ i, (lr i).Shows w h F) (hsw : score.Wf) (hw : 2 ≤ w) (hh : 2 ≤ h) (hwh : w * h ≤ 2147483647)
    (hg0 : 0 < g 0) (hg : ∀ j, 0 ≤ g j) :
    ∃ d, checkersScore g junk junkB score lr = .ok d ∧ d.Shows w h (fun _ _ => 0) := by
  obtain ⟨d, wx, wy, e, _, g1, g2, q⟩ := c99_score (junk := junk) (junkB := junkB) (f := fun _ => F) hl hsw hw hh hwh hg0 hg
  refine ⟨d, e, q.width_eq, q.height_eq, ?_⟩
  intro x y hx hy
  rw [q.pixel_eq x y hx hy]
  have key : ∀ i j, spread (fun _ => (F i j).toNat) ^ 2 = 0 := by
    intro i j
    rw [← checkersPixel_eq (fun _ => F i j)]
    simp [checkersPixel]
  simp [key, windowSum]

end

/-! ## Examples -/

/-- The saddle of a board of side four; rows and columns of the result differ from the diagonals. -/
example : (do
      let o ← checkersRadon (7/10) (10/7) (fun _ => 9) (fun _ => 5) (fun _ => none)
        ⟨4, 4, 5, [200, 200, 0, 0, 7, 200, 200, 0, 0, 7, 0, 0, 200, 200, 7, 0, 0, 200, 200, 7]⟩ 1
      pure [(o 0).data, (o 1).data, (o 2).data, (o 3).data]) =
    .ok [[200, 133, 66, 0, 200, 133, 66, 0, 0, 66, 133, 200, 0, 66, 133, 200],
      [200, 200, 0, 0, 133, 133, 66, 66, 66, 66, 133, 133, 0, 0, 200, 200],
      [165, 133, 47, 10, 133, 87, 45, 47, 47, 45, 86, 95, 10, 47, 95, 13],
      [186, 138, 50, 3, 138, 133, 108, 10, 50, 108, 109, 65, 3, 10, 65, 68]] := by decide +kernel

/-- The hypotheses of `c99_radon` and `c99_cover` for that board. -/
example : (7 : Nat) * (10 / 7 : Rat) ≤ ((4 + 4 + 2 : Nat) : Rat) ∧ ((4 + 4 + 2 : Nat) : Rat) < ((7 : Nat) + 1) * (10 / 7) ∧
    (7 / 10 : Rat) * (10 / 7) ≤ 1 ∧ (1 / 2 : Rat) ≤ 7 / 10 := by norm_num

/-- A large image: 33000 by 33000 samples fit, the rotated image of side 46670 does not. -/
example : (46670 : Nat) * (1414214 / 1000000 : Rat) ≤ ((33000 + 33000 + 2 : Nat) : Rat) ∧
    ((33000 + 33000 + 2 : Nat) : Rat) < ((46670 : Nat) + 1) * (1414214 / 1000000) ∧ 2147483647 < 46670 * 46670 ∧
    33000 * 33000 ≤ 2147483647 := by norm_num

example : (checkersScore (fun j => 1 / (1 + j)) (fun _ => 9) (fun _ => 5) noImage
      (fun i => ⟨2, 2, 2, [200, i.val.toUInt8, 100, 3]⟩)) =
    .ok ⟨2, 2, 2, [10549 / 330876100, 18769 / 330876100, 5929 / 330876100, 10549 / 330876100]⟩ := by decide +kernel

end Nx
