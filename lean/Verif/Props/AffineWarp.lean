import Verif.Model.AffineWarp
import Verif.Spec.AffineWarp
import Verif.Props.Warp
import Mathlib.Tactic.LinearCombination
import Mathlib.Tactic.FieldSimp
import Mathlib.Analysis.SpecialFunctions.Trigonometric.Basic
import Mathlib.Analysis.SpecialFunctions.Complex.Arg

/-! # C92: simulation of affine views -/

namespace Nx

set_option linter.unusedSectionVars false

section
variable {K : Type} [Field K] [LinearOrder K] [IsStrictOrderedRing K] [FloorRing K]

theorem updForward_apply (fwd : Aff K) (ci co : K × K) (sx sy c s : K) (p : K × K) :
    affApply (updForward fwd ci co sx sy c s) p =
      (co.1 + sx * (c * ((affApply fwd p).1 - ci.1) - s * ((affApply fwd p).2 - ci.2)),
        co.2 + sy * (s * ((affApply fwd p).1 - ci.1) + c * ((affApply fwd p).2 - ci.2))) := by
  unfold affApply updForward affCombine
  simp only [Prod.mk.injEq]
  constructor <;> ring

theorem updInverse_apply (inv : Aff K) (ci co : K × K) (sx sy c s : K) (q : K × K) :
    affApply (updInverse inv ci co sx sy c s) q = affApply inv (affApply (fillInverse ci co sx sy c s) q) := by
  unfold affApply updInverse affCombine fillInverse
  simp only [Prod.mk.injEq]
  constructor <;> ring

theorem min4_le (a b c d : K) : min4 a b c d ≤ a ∧ min4 a b c d ≤ b ∧ min4 a b c d ≤ c ∧ min4 a b c d ≤ d := by
  unfold min4
  simp only
  split_ifs <;> refine ⟨?_, ?_, ?_, ?_⟩ <;> linarith

theorem le_max4 (a b c d : K) : a ≤ max4 a b c d ∧ b ≤ max4 a b c d ∧ c ≤ max4 a b c d ∧ d ≤ max4 a b c d := by
  unfold max4
  simp only
  split_ifs <;> refine ⟨?_, ?_, ?_, ?_⟩ <;> linarith

/-- An affine function on a rectangle stays around its value in the centre, by at most half of the width of an interval around the
values at the corners. -/
theorem corner_bound {A B w h D x y : K} (h1 : A * w + B * h ≤ D) (h2 : A * w - B * h ≤ D) (h3 : -(A * w) + B * h ≤ D)
    (h4 : -(A * w) - B * h ≤ D) (hx0 : 0 ≤ x) (hx1 : x ≤ w) (hy0 : 0 ≤ y) (hy1 : y ≤ h) :
    -(D / 2) ≤ A * (x - w / 2) + B * (y - h / 2) ∧ A * (x - w / 2) + B * (y - h / 2) ≤ D / 2 := by
  have bound : ∀ (A w x : K), 0 ≤ x → x ≤ w → A * (x - w / 2) ≤ A * w / 2 ∧ -(A * w / 2) ≤ A * (x - w / 2) ∨
      A * (x - w / 2) ≤ -(A * w / 2) ∧ A * w / 2 ≤ A * (x - w / 2) := by
    intro A w x h0 h1
    rcases le_total 0 A with hA | hA
    · left
      have e1 := mul_nonneg hA h0
      have e2 := mul_nonneg hA (sub_nonneg.mpr h1)
      constructor <;> nlinarith
    · right
      have e1 := mul_nonneg (neg_nonneg.mpr hA) h0
      have e2 := mul_nonneg (neg_nonneg.mpr hA) (sub_nonneg.mpr h1)
      constructor <;> nlinarith
  rcases bound A w x hx0 hx1 with ⟨a1, a2⟩ | ⟨a1, a2⟩ <;> rcases bound B h y hy0 hy1 with ⟨b1, b2⟩ | ⟨b1, b2⟩ <;>
    constructor <;> linarith

theorem cInt_big {r : K} {i : Int} (hr : 0 ≤ r) (e : cInt r = .ok i) : 0 ≤ i ∧ (i : K) ≤ r ∧ r < (i : K) + 1 := by
  unfold cInt at e
  split at e
  · injection e with e
    subst e
    unfold cTrunc
    rw [if_pos hr]
    exact ⟨Int.floor_nonneg.mpr hr, Int.floor_le r, Int.lt_floor_add_one r⟩
  · exact absurd e (by simp)

/-- Along one direction the size suffices for an affine function `A x + B y + C` of the points of the image. -/
theorem size_axis {A B C w h x y tl tr bl br : K} {o : Int} (e : cInt (max4 tl tr bl br - min4 tl tr bl br + 2 * 1) = .ok o)
    (h1 : tl = C) (h2 : tr = A * w + C) (h3 : bl = B * h + C) (h4 : br = A * w + B * h + C)
    (hx0 : 0 ≤ x) (hx1 : x ≤ w) (hy0 : 0 ≤ y) (hy1 : y ≤ h) :
    1 / 2 < (o : K) / 2 + (A * (x - w / 2) + B * (y - h / 2)) ∧ (o : K) / 2 + (A * (x - w / 2) + B * (y - h / 2)) < o - 1 / 2 := by
  obtain ⟨m1, m2, m3, m4⟩ := min4_le tl tr bl br
  obtain ⟨M1, M2, M3, M4⟩ := le_max4 tl tr bl br
  obtain ⟨_, _, hi⟩ := cInt_big (by linarith) e
  obtain ⟨l, u⟩ := corner_bound (A := A) (B := B) (w := w) (h := h) (D := max4 tl tr bl br - min4 tl tr bl br) (x := x) (y := y)
    (by linarith) (by linarith) (by linarith) (by linarith) hx0 hx1 hy0 hy1
  constructor <;> linarith

/-- One buffer: the transformation to it, the transformation from it, and its size. -/
theorem awpResize_spec {w h : Nat} {prev st : AwpStage K} {sx sy c s : K}
    (hc : affApply prev.fwd ((w : K) / 2, (h : K) / 2) = ((prev.width : K) / 2, (prev.height : K) / 2))
    (e : awpResize w h prev sx sy c s = .ok st) :
    (∀ p, affApply st.fwd p =
      ((st.width : K) / 2 + sx * (c * ((affApply prev.fwd p).1 - (prev.width : K) / 2) - s * ((affApply prev.fwd p).2 - (prev.height : K) / 2)),
       (st.height : K) / 2 + sy * (s * ((affApply prev.fwd p).1 - (prev.width : K) / 2) + c * ((affApply prev.fwd p).2 - (prev.height : K) / 2)))) ∧
    (∀ q, affApply st.inv q = affApply prev.inv (affApply (fillInverse ((prev.width : K) / 2, (prev.height : K) / 2)
      ((st.width : K) / 2, (st.height : K) / 2) sx sy c s) q)) ∧
    (∀ p : K × K, 0 ≤ p.1 → p.1 ≤ w → 0 ≤ p.2 → p.2 ≤ h → 1 / 2 < (affApply st.fwd p).1 ∧ (affApply st.fwd p).1 < st.width - 1 / 2 ∧
      1 / 2 < (affApply st.fwd p).2 ∧ (affApply st.fwd p).2 < st.height - 1 / 2) := by
  unfold awpResize at e
  obtain ⟨o, eo, e⟩ := Res.bind_eq_ok.mp e
  split at e
  · exact absurd e (by simp)
  rename_i hneg
  simp only [Res.pure_eq, Res.ok.injEq] at e
  subst e
  have o1 : ((o.1.toNat : Nat) : K) = (o.1 : K) := by
    have : ((o.1.toNat : Int) : K) = (o.1 : K) := by rw [Int.toNat_of_nonneg (by omega)]
    rw [← this, Int.cast_natCast]
  have o2 : ((o.2.toNat : Nat) : K) = (o.2 : K) := by
    have : ((o.2.toNat : Int) : K) = (o.2 : K) := by rw [Int.toNat_of_nonneg (by omega)]
    rw [← this, Int.cast_natCast]
  simp only [o1, o2]
  refine ⟨fun p => updForward_apply _ _ _ _ _ _ _ p, fun q => updInverse_apply _ _ _ _ _ _ _ q, ?_⟩
  intro p hx0 hx1 hy0 hy1
  rw [updForward_apply]
  simp only
  unfold awpSize at eo
  simp only at eo
  obtain ⟨wo, ew, eo⟩ := Res.bind_eq_ok.mp eo
  obtain ⟨ho, eh, eo⟩ := Res.bind_eq_ok.mp eo
  simp only [Res.pure_eq, Res.ok.injEq] at eo
  subst eo
  simp only
  have c1 := congrArg Prod.fst hc
  have c2 := congrArg Prod.snd hc
  unfold affApply at c1 c2 ew eh ⊢
  simp only at c1 c2 ew eh ⊢
  have k1 := size_axis (A := sx * c * prev.fwd.t0 - sx * s * prev.fwd.t1) (B := sx * c * prev.fwd.t2 - sx * s * prev.fwd.t3)
    (C := sx * c * prev.fwd.t4 - sx * s * prev.fwd.t5) ew (by ring) (by ring) (by ring) (by ring) hx0 hx1 hy0 hy1
  have k2 := size_axis (A := sy * s * prev.fwd.t0 + sy * c * prev.fwd.t1) (B := sy * s * prev.fwd.t2 + sy * c * prev.fwd.t3)
    (C := sy * s * prev.fwd.t4 + sy * c * prev.fwd.t5) eh (by ring) (by ring) (by ring) (by ring) hx0 hx1 hy0 hy1
  rw [← c1, ← c2]
  refine ⟨?_, ?_, ?_, ?_⟩
  · refine lt_of_lt_of_eq k1.1 ?_
    ring
  · refine lt_of_eq_of_lt ?_ k1.2
    ring
  · refine lt_of_lt_of_eq k2.1 ?_
    ring
  · refine lt_of_eq_of_lt ?_ k2.2
    ring

/-- What is known about sine and cosine. -/
structure TrigOk (m : FloatMath K) : Prop where
  unit : ∀ a, m.cos a * m.cos a + m.sin a * m.sin a = 1
  cos_zero : m.cos 0 = 1
  sin_zero : m.sin 0 = 0

/-- The transformation of one buffer and the one that is used for sampling are inverse to each other, if both directions are scaled
in the same way or if nothing is turned. -/
theorem fillInverse_inverse {ci co : K × K} {sx sy c s : K} (h1 : c * c + s * s = 1) (hx : sx ≠ 0) (hy : sy ≠ 0) (hs : sx = sy ∨ s = 0) :
    (∀ q : K × K, affApply (fillInverse ci co sx sy c s)
      (co.1 + sx * (c * (q.1 - ci.1) - s * (q.2 - ci.2)), co.2 + sy * (s * (q.1 - ci.1) + c * (q.2 - ci.2))) = q) ∧
    (∀ q : K × K, (co.1 + sx * (c * ((affApply (fillInverse ci co sx sy c s) q).1 - ci.1) - s * ((affApply (fillInverse ci co sx sy c s) q).2 - ci.2)),
      co.2 + sy * (s * ((affApply (fillInverse ci co sx sy c s) q).1 - ci.1) + c * ((affApply (fillInverse ci co sx sy c s) q).2 - ci.2))) = q) := by
  unfold affApply fillInverse
  rcases hs with hs | hs
  · subst hs
    constructor
    · intro q
      refine Prod.ext ?_ ?_
      · simp only
        field_simp
        linear_combination sx * (q.1 - ci.1) * h1
      · simp only
        field_simp
        linear_combination sx * (q.2 - ci.2) * h1
    · intro q
      refine Prod.ext ?_ ?_
      · simp only
        field_simp
        linear_combination (q.1 - co.1) * h1
      · simp only
        field_simp
        linear_combination (q.2 - co.2) * h1
  · subst hs
    have h2 : c * c = 1 := by linear_combination h1
    constructor
    · intro q
      refine Prod.ext ?_ ?_
      · simp only
        field_simp
        linear_combination sx * (q.1 - ci.1) * h2
      · simp only
        field_simp
        linear_combination sy * (q.2 - ci.2) * h2
    · intro q
      refine Prod.ext ?_ ?_
      · simp only
        field_simp
        linear_combination sy * (q.1 - co.1) * h2
      · simp only
        field_simp
        linear_combination sx * (q.2 - co.2) * h2

variable {m : FloatMath K} {w h : Nat} {p : AwpParam K} {s1 s2 s3 : AwpStage K}

theorem awpResizeAll_steps (e : awpResizeAll m w h p = .ok (s1, s2, s3)) :
    awpResize w h ⟨w, h, affId, affId⟩ 1 1 (m.cos p.tiltAngle) (m.sin p.tiltAngle) = .ok s1 ∧
    awpResize w h s1 (1 / p.tilt) 1 (m.cos 0) (m.sin 0) = .ok s2 ∧
    awpResize w h s2 p.scale p.scale (m.cos p.planar) (m.sin p.planar) = .ok s3 := by
  unfold awpResizeAll at e
  obtain ⟨a, e1, e⟩ := Res.bind_eq_ok.mp e
  obtain ⟨b, e2, e⟩ := Res.bind_eq_ok.mp e
  obtain ⟨c, e3, e⟩ := Res.bind_eq_ok.mp e
  simp only [Res.pure_eq, Res.ok.injEq, Prod.mk.injEq] at e
  obtain ⟨rfl, rfl, rfl⟩ := e
  exact ⟨e1, e2, e3⟩

theorem affApply_id (q : K × K) : affApply (affId : Aff K) q = q := by
  unfold affApply affId
  refine Prod.ext ?_ ?_ <;> simp

/-- The centres are mapped to each other. -/
theorem centre_of {prev st : AwpStage K} {sx sy c s : K}
    (hc : affApply prev.fwd ((w : K) / 2, (h : K) / 2) = ((prev.width : K) / 2, (prev.height : K) / 2))
    (e : awpResize w h prev sx sy c s = .ok st) :
    affApply st.fwd ((w : K) / 2, (h : K) / 2) = ((st.width : K) / 2, (st.height : K) / 2) := by
  rw [(awpResize_spec hc e).1, hc]
  simp

theorem centres (e : awpResizeAll m w h p = .ok (s1, s2, s3)) :
    affApply s1.fwd ((w : K) / 2, (h : K) / 2) = ((s1.width : K) / 2, (s1.height : K) / 2) ∧
    affApply s2.fwd ((w : K) / 2, (h : K) / 2) = ((s2.width : K) / 2, (s2.height : K) / 2) ∧
    affApply s3.fwd ((w : K) / 2, (h : K) / 2) = ((s3.width : K) / 2, (s3.height : K) / 2) := by
  obtain ⟨e1, e2, e3⟩ := awpResizeAll_steps e
  have k1 := centre_of (affApply_id _) e1
  have k2 := centre_of k1 e2
  exact ⟨k1, k2, centre_of k2 e3⟩

/-- C92. The transformation to the result is the view of the plane around the centre of the image, which goes to the centre of the
result. -/
theorem c92_forward (hm : TrigOk m) (e : awpResizeAll m w h p = .ok (s1, s2, s3)) (q : K × K) :
    affApply s3.fwd q =
      (((s3.width : K) / 2, (s3.height : K) / 2) : K × K) +
        viewOf m.cos m.sin p.scale p.planar p.tilt p.tiltAngle (q - ((w : K) / 2, (h : K) / 2)) := by
  obtain ⟨e1, e2, e3⟩ := awpResizeAll_steps e
  obtain ⟨k1, k2, k3⟩ := centres e
  rw [(awpResize_spec k2 e3).1, (awpResize_spec k1 e2).1, (awpResize_spec (affApply_id _) e1).1]
  simp only [affApply_id, hm.cos_zero, hm.sin_zero, viewOf, stretch, turn]
  refine Prod.ext ?_ ?_ <;> simp only [Prod.fst_add, Prod.snd_add, Prod.fst_sub, Prod.snd_sub] <;> ring

/-- C92. The two transformations of the processor are inverse to each other. -/
theorem c92_inverse (hm : TrigOk m) (hs : p.scale ≠ 0) (ht : p.tilt ≠ 0) (e : awpResizeAll m w h p = .ok (s1, s2, s3)) (q : K × K) :
    affApply s3.inv (affApply s3.fwd q) = q ∧ affApply s3.fwd (affApply s3.inv q) = q := by
  obtain ⟨e1, e2, e3⟩ := awpResizeAll_steps e
  obtain ⟨k1, k2, k3⟩ := centres e
  obtain ⟨a1, b1, _⟩ := awpResize_spec (affApply_id _) e1
  obtain ⟨a2, b2, _⟩ := awpResize_spec k1 e2
  obtain ⟨a3, b3, _⟩ := awpResize_spec k2 e3
  have i1 := fillInverse_inverse (ci := ((w : K) / 2, (h : K) / 2)) (co := ((s1.width : K) / 2, (s1.height : K) / 2))
    (hm.unit p.tiltAngle) one_ne_zero one_ne_zero (Or.inl rfl)
  have i2 := fillInverse_inverse (ci := ((s1.width : K) / 2, (s1.height : K) / 2)) (co := ((s2.width : K) / 2, (s2.height : K) / 2))
    (hm.unit 0) (one_div_ne_zero ht) one_ne_zero (Or.inr hm.sin_zero)
  have i3 := fillInverse_inverse (ci := ((s2.width : K) / 2, (s2.height : K) / 2)) (co := ((s3.width : K) / 2, (s3.height : K) / 2))
    (hm.unit p.planar) hs hs (Or.inl rfl)
  have f1 : ∀ q, affApply s1.inv (affApply s1.fwd q) = q ∧ affApply s1.fwd (affApply s1.inv q) = q := by
    intro q
    constructor
    · rw [b1, a1, affApply_id, affApply_id]
      exact i1.1 q
    · rw [a1, b1, affApply_id, affApply_id]
      exact i1.2 q
  have f2 : ∀ q, affApply s2.inv (affApply s2.fwd q) = q ∧ affApply s2.fwd (affApply s2.inv q) = q := by
    intro q
    constructor
    · rw [b2, a2, i2.1, (f1 q).1]
    · rw [a2, b2, (f1 _).2]
      exact i2.2 q
  constructor
  · rw [b3, a3, i3.1, (f2 q).1]
  · rw [a3, b3, (f2 _).2]
    exact i3.2 q

/-- C92. All of the image lies in each of the three buffers, more than half a pixel away from the border. -/
theorem c92_contains (e : awpResizeAll m w h p = .ok (s1, s2, s3)) {st : AwpStage K} (hst : st = s1 ∨ st = s2 ∨ st = s3)
    {q : K × K} (hx0 : 0 ≤ q.1) (hx1 : q.1 ≤ w) (hy0 : 0 ≤ q.2) (hy1 : q.2 ≤ h) :
    1 / 2 < (affApply st.fwd q).1 ∧ (affApply st.fwd q).1 < st.width - 1 / 2 ∧
      1 / 2 < (affApply st.fwd q).2 ∧ (affApply st.fwd q).2 < st.height - 1 / 2 := by
  obtain ⟨e1, e2, e3⟩ := awpResizeAll_steps e
  obtain ⟨k1, k2, k3⟩ := centres e
  rcases hst with rfl | rfl | rfl
  · exact (awpResize_spec (affApply_id _) e1).2.2 q hx0 hx1 hy0 hy1
  · exact (awpResize_spec k1 e2).2.2 q hx0 hx1 hy0 hy1
  · exact (awpResize_spec k2 e3).2.2 q hx0 hx1 hy0 hy1

/-- C92. Going from the result through the buffers as they are sampled leads to the position at which the background is decided. -/
theorem c92_sampling (e : awpResizeAll m w h p = .ok (s1, s2, s3)) (q : K × K) :
    affApply (fillInverse ((w : K) / 2, (h : K) / 2) ((s1.width : K) / 2, (s1.height : K) / 2) 1 1 (m.cos p.tiltAngle) (m.sin p.tiltAngle))
      (affApply (fillInverse ((s1.width : K) / 2, (s1.height : K) / 2) ((s2.width : K) / 2, (s2.height : K) / 2) (1 / p.tilt) 1 (m.cos 0) (m.sin 0))
        (affApply (fillInverse ((s2.width : K) / 2, (s2.height : K) / 2) ((s3.width : K) / 2, (s3.height : K) / 2) p.scale p.scale
          (m.cos p.planar) (m.sin p.planar)) q)) = affApply s3.inv q := by
  obtain ⟨e1, e2, e3⟩ := awpResizeAll_steps e
  obtain ⟨k1, k2, k3⟩ := centres e
  rw [(awpResize_spec k2 e3).2.1, (awpResize_spec k1 e2).2.1, (awpResize_spec (affApply_id _) e1).2.1, affApply_id]

end

/-! ## Pixels -/

/-- Loops that write some of the pixels. -/
theorem fill_keep {st H w : Nat} {g : Nat → Nat → Byte} {o : Nat → Nat → Option Byte} {body : Nat → Nat → List Byte → Res (List Byte)}
    (hst : w ≤ st) {d0 : List Byte} (hd : d0.length = st * H) (hg : ∀ x y, x < w → y < H → d0[y * st + x]? = some (g x y))
    (hb : ∀ y x d, y < H → x < w → d.length = st * H → body y x d = putSome d (y * st + x) (o x y)) :
    ∃ d, forLoop H (fun y d => forLoop w (body y) 0 d) 0 d0 = .ok d ∧ d.length = st * H ∧
      ∀ x y, x < w → y < H → d[y * st + x]? = some ((o x y).getD (g x y)) := by
  let P : Nat → Nat → List Byte → Prop := fun y x d => d.length = st * H ∧ ∀ x' y', x' < w → y' < H →
    d[y' * st + x']? = some (if y' < y ∨ (y' = y ∧ x' < x) then (o x' y').getD (g x' y') else g x' y')
  obtain ⟨d, e, h1, h2⟩ := forLoop_spec (n := H) (body := fun y d => forLoop w (body y) 0 d) (i0 := 0) (s := d0)
    (fun y d => P y 0 d) (Nat.zero_le _) ⟨hd, by
      intro x' y' hx' hy'
      rw [if_neg (by omega)]
      exact hg x' y' hx' hy'⟩ (by
      intro y d _ hy hP
      obtain ⟨d', e, h1, h2⟩ := forLoop_spec (n := w) (body := body y) (i0 := 0) (s := d) (fun x d => P y x d) (Nat.zero_le _) hP (by
        intro x d _ hx hP
        obtain ⟨hl, hv⟩ := hP
        rw [hb y x d hy hx hl]
        cases ho : o x y with
        | none =>
          refine ⟨d, rfl, hl, ?_⟩
          intro x' y' hx' hy'
          rw [hv x' y' hx' hy']
          by_cases hc : x = x' ∧ y = y'
          · obtain ⟨rfl, rfl⟩ := hc
            rw [if_neg (by omega), if_pos (by omega), ho]
            rfl
          · by_cases hlt : y' < y ∨ (y' = y ∧ x' < x)
            · rw [if_pos hlt, if_pos (by omega)]
            · rw [if_neg hlt, if_neg (by omega)]
        | some b =>
          refine ⟨d.set (y * st + x) b, writeAt_ok _ (by rw [hl]; exact pixIdx_lt (by omega) hy), by rw [List.length_set]; exact hl, ?_⟩
          intro x' y' hx' hy'
          rw [pix_set hl (by omega) hy (by omega)]
          by_cases hc : x = x' ∧ y = y'
          · obtain ⟨rfl, rfl⟩ := hc
            rw [if_pos ⟨rfl, rfl⟩, if_pos (by omega), ho]
            rfl
          · rw [if_neg hc, hv x' y' hx' hy']
            by_cases hlt : y' < y ∨ (y' = y ∧ x' < x)
            · rw [if_pos hlt, if_pos (by omega)]
            · rw [if_neg hlt, if_neg (by omega)])
      refine ⟨d', e, h1, ?_⟩
      intro x' y' hx' hy'
      rw [h2 x' y' hx' hy']
      by_cases hlt : y' < y + 1
      · rw [if_pos (by omega), if_pos (by omega)]
      · rw [if_neg (by omega), if_neg (by omega)])
  refine ⟨d, e, h1, ?_⟩
  intro x y hx hy
  rw [h2 x y hx hy, if_pos (by omega)]

section
variable {src : GImage Byte} {w h : Nat} {f : Nat → Nat → Byte} {xp yp s : Rat}

/-- A pixel of a buffer is a pixel of the image warped with a black background. -/
theorem awpSample_spec (hs : src.Shows w h f) (hw : 0 < w) (hh : 0 < h) (hx : IntRange xp) (hy : IntRange yp) :
    ∃ o, awpSample src xp yp = .ok o ∧ warpPixel .black w h src.data src.stride xp yp 0 = .ok (o.getD 0) := by
  obtain ⟨c, ec⟩ := c78_safe (mode := .black) (s := 0) (by simp) hs hw hh hx hy (by norm_num)
  have ec' := ec
  obtain ⟨ex, nx⟩ := truncInt_fits hx
  obtain ⟨ey, ny⟩ := truncInt_fits hy
  unfold warpPixel at ec'
  unfold awpSample
  rw [ex, ey] at ec' ⊢
  simp only [Res.ok_bind] at ec' ⊢
  rw [hs.width_eq, hs.height_eq]
  have hidx : ∀ (n : Nat) (i : Int), i ≠ 2147483647 →
      warpIndex .black n i = if i < 0 ∨ i ≥ (n : Int) - 1 then .ok none else .ok (some (i, i + 1)) := by
    intro n i hi
    unfold warpIndex
    simp only
    rw [if_neg hi]
  rw [hidx _ _ nx, hidx _ _ ny] at ec'
  by_cases hox : ratTrunc xp < 0 ∨ ratTrunc xp ≥ (w : Int) - 1
  · rw [if_pos hox] at ec'
    refine ⟨none, by rw [if_pos (by omega)]; rfl, ?_⟩
    rw [ec]
    by_cases hoy : ratTrunc yp < 0 ∨ ratTrunc yp ≥ (h : Int) - 1
    · rw [if_pos hoy] at ec'
      exact ec'.symm
    · rw [if_neg hoy] at ec'
      exact ec'.symm
  · by_cases hoy : ratTrunc yp < 0 ∨ ratTrunc yp ≥ (h : Int) - 1
    · rw [if_neg hox, if_pos hoy] at ec'
      refine ⟨none, by rw [if_pos (by omega)]; rfl, ?_⟩
      rw [ec]
      exact ec'.symm
    · rw [if_neg hox, if_neg hoy] at ec'
      simp only [Res.ok_bind] at ec'
      rw [if_neg (by omega)]
      obtain ⟨p, ep, ec'⟩ := Res.bind_eq_ok.mp ec'
      obtain ⟨I, eI, ec'⟩ := Res.bind_eq_ok.mp ec'
      rw [ep]
      simp only [Res.ok_bind]
      rw [eI]
      refine ⟨some (clampByte I), rfl, ?_⟩
      rw [ec]
      exact ec'.symm

/-- C92. A cleared buffer becomes the warped image of C78 with a black background. -/
theorem c92_stage {dest : GImage Byte} {t : Aff Rat} (hs : src.Shows w h f) (hw : 0 < w) (hh : 0 < h) (hd : dest.Wf) {dw dh : Nat}
    (h0 : dest.Shows dw dh (fun _ _ => 0))
    (hr : ∀ x y : Nat, x < dw → y < dh → IntRange (y * t.t2 + t.t4 + x * t.t0) ∧ IntRange (y * t.t3 + t.t5 + x * t.t1)) :
    ∃ d S, awpWarp dest src t = .ok d ∧ d.Wf ∧ d.Shows dw dh S ∧ ∀ x y : Nat, x < dw → y < dh →
      warpPixel .black w h src.data src.stride (y * t.t2 + t.t4 + x * t.t0) (y * t.t3 + t.t5 + x * t.t1) 0 = .ok (S x y) := by
  have hex : ∀ x y : Nat, ∃ o : Option Byte, x < dw → y < dh →
      awpSample src (y * t.t2 + t.t4 + x * t.t0) (y * t.t3 + t.t5 + x * t.t1) = .ok o ∧
      warpPixel .black w h src.data src.stride (y * t.t2 + t.t4 + x * t.t0) (y * t.t3 + t.t5 + x * t.t1) 0 = .ok (o.getD 0) := by
    intro x y
    by_cases hxy : x < dw ∧ y < dh
    · obtain ⟨o, e1, e2⟩ := awpSample_spec hs hw hh (hr x y hxy.1 hxy.2).1 (hr x y hxy.1 hxy.2).2
      exact ⟨o, fun _ _ => ⟨e1, e2⟩⟩
    · exact ⟨none, fun a b => absurd ⟨a, b⟩ hxy⟩
  choose o ho using hex
  have e1 := h0.width_eq
  have e2 := h0.height_eq
  subst e1 e2
  obtain ⟨d, e, hl, hv⟩ := fill_keep (st := dest.stride) (H := dest.height) (w := dest.width) (g := fun _ _ => 0) (o := o) (d0 := dest.data)
    (body := fun y x d => do
      let b ← awpSample src (y * t.t2 + t.t4 + x * t.t0) (y * t.t3 + t.t5 + x * t.t1)
      putSome d (y * dest.stride + x) b) hd.stride_ge hd.length_eq h0.pixel_eq (by
      intro y x d hy hx _
      rw [(ho x y hx hy).1]
      rfl)
  refine ⟨{ dest with data := d }, fun x y => (o x y).getD 0, ?_, ⟨hd.stride_ge, hl⟩, ⟨rfl, rfl, hv⟩, fun x y hx hy => (ho x y hx hy).2⟩
  unfold awpWarp
  rw [e]
  rfl

theorem trunc_low {q : Rat} : ratTrunc q ≤ 0 ↔ q < 1 := by
  by_cases h0 : q < 0
  · rw [ratTrunc_neg h0]
    have : 0 ≤ ⌊-q⌋ := Int.floor_nonneg.mpr (by linarith)
    constructor
    · intro _; linarith
    · intro _; omega
  · rw [ratTrunc_nonneg (not_lt.mp h0), ← Int.lt_add_one_iff, zero_add, Int.floor_lt]
    simp

theorem trunc_high {q : Rat} {n : Nat} (h1 : 1 ≤ q) : ratTrunc q + 1 ≥ (n : Int) - 1 ↔ (n : Rat) - 2 ≤ q := by
  rw [ratTrunc_nonneg (by linarith)]
  have : ⌊q⌋ + 1 ≥ (n : Int) - 1 ↔ (n : Int) - 2 ≤ ⌊q⌋ := by omega
  rw [this, Int.le_floor]
  push_cast
  rfl

theorem interior_iff {q : Rat} {n : Nat} : ¬ (ratTrunc q ≤ 0 ∨ ratTrunc q + 1 ≥ (n : Int) - 1) ↔ Interior n q := by
  unfold Interior
  by_cases h1 : q < 1
  · constructor
    · intro h; exact absurd (Or.inl (trunc_low.mpr h1)) h
    · intro h; linarith [h.1]
  · have h1' := not_lt.mp h1
    rw [not_or, trunc_high h1', trunc_low]
    constructor
    · intro h; exact ⟨h1', not_le.mp h.2⟩
    · intro h; exact ⟨h1, not_le.mpr h.2⟩

/-- C92. A fixed background replaces exactly the pixels that come from outside of the interior of the image. -/
theorem c92_fixed (hx : IntRange xp) (hy : IntRange yp) (color : Byte) (img : GImage Byte) :
    (Interior img.width xp ∧ Interior img.height yp → awpFillPixel .fixed color img xp yp s = .ok none) ∧
    (¬ (Interior img.width xp ∧ Interior img.height yp) → awpFillPixel .fixed color img xp yp s = .ok (some color)) := by
  obtain ⟨ex, nx⟩ := truncInt_fits hx
  obtain ⟨ey, ny⟩ := truncInt_fits hy
  unfold awpFillPixel
  rw [ex, ey, ← interior_iff, ← interior_iff]
  simp only [Res.ok_bind]
  rw [if_neg (by omega)]
  constructor
  · intro hi
    rw [if_neg (by omega)]
    rfl
  · intro hi
    rw [if_pos (by omega)]
    rfl

/-- C92. The same for noise. -/
theorem c92_noise (hx : IntRange xp) (hy : IntRange yp) (h0 : 0 ≤ s) (h1 : s ≤ 1) (color : Byte) (img : GImage Byte) :
    (Interior img.width xp ∧ Interior img.height yp → awpFillPixel .noise color img xp yp s = .ok none) ∧
    (¬ (Interior img.width xp ∧ Interior img.height yp) →
      ∃ c, awpFillPixel .noise color img xp yp s = .ok (some c) ∧ byteVal c ≤ 255 * s ∧ 255 * s < byteVal c + 1) := by
  obtain ⟨ex, nx⟩ := truncInt_fits hx
  obtain ⟨ey, ny⟩ := truncInt_fits hy
  unfold awpFillPixel
  rw [ex, ey, ← interior_iff, ← interior_iff]
  simp only [Res.ok_bind]
  rw [if_neg (by omega)]
  constructor
  · intro hi
    rw [if_neg (by omega)]
    rfl
  · intro hi
    rw [if_pos (by omega)]
    obtain ⟨c, e, c1, c2⟩ := storeByte_spec (show 0 ≤ 255 * s by linarith) (show 255 * s ≤ 255 by linarith)
    rw [e]
    exact ⟨c, rfl, c1, c2⟩

/-- The positions along one direction. -/
theorem awpIndex_spec {n : Nat} {q : Rat} (hn : 0 < n) :
    ∃ a b g, awpIndex n (ratTrunc q) = (a, b, g) ∧ 0 ≤ a ∧ a < n ∧ 0 ≤ b ∧ b < n ∧ (g = true ↔ ¬ Interior n q) ∧
      a = ⌊edgeCoord n q⌋ ∧ ((q - ratTrunc q = Int.fract (edgeCoord n q) ∧ b = ⌊edgeCoord n q⌋ + 1) ∨
        (a = b ∧ Int.fract (edgeCoord n q) = 0)) := by
  unfold awpIndex edgeCoord
  simp only
  by_cases h1 : q < 1
  · rw [if_pos (trunc_low.mpr h1), if_pos h1]
    refine ⟨0, 0, true, rfl, by omega, by omega, by omega, by omega, ?_, by simp, Or.inr ⟨rfl, by simp⟩⟩
    simp only [true_iff]
    exact fun h => by linarith [h.1]
  · have h1' := not_lt.mp h1
    rw [if_neg (fun h => h1 (trunc_low.mp h)), if_neg h1]
    by_cases h2 : (n : Rat) - 2 ≤ q
    · rw [if_pos ((trunc_high h1').mpr h2), if_pos h2]
      have ef : ⌊(n : Rat) - 1⌋ = (n : Int) - 1 := by
        rw [show ((n : Rat) - 1) = (((n : Int) - 1 : Int) : Rat) by push_cast; rfl]
        exact Int.floor_intCast _
      refine ⟨(n : Int) - 1, (n : Int) - 1, true, rfl, by omega, by omega, by omega, by omega, ?_, ef.symm, Or.inr ⟨rfl, ?_⟩⟩
      · simp only [true_iff]
        exact fun h => by linarith [h.2]
      · unfold Int.fract
        rw [ef]
        push_cast
        ring
    · rw [if_neg (fun h => h2 ((trunc_high h1').mp h)), if_neg h2]
      have hhi := (not_iff_not.mpr (trunc_high (n := n) h1')).mpr h2
      rw [ratTrunc_nonneg (by linarith)] at hhi ⊢
      have hlo : 0 ≤ ⌊q⌋ := Int.floor_nonneg.mpr (by linarith)
      refine ⟨_, _, _, rfl, hlo, by omega, by omega, by omega, ?_, rfl, Or.inl ⟨rfl, rfl⟩⟩
      simp only [Bool.false_eq_true, false_iff, not_not]
      exact ⟨h1', not_le.mp h2⟩

/-- C92. With repetition the other pixels are interpolated at the position that is moved to the border, always inside of the image. -/
theorem c92_repeat (hs : src.Shows w h f) (hw : 0 < w) (hh : 0 < h) (hx : IntRange xp) (hy : IntRange yp) (color : Byte) :
    (Interior w xp ∧ Interior h yp → awpFillPixel .repeat color src xp yp s = .ok none) ∧
    (¬ (Interior w xp ∧ Interior h yp) → ∃ c, awpFillPixel .repeat color src xp yp s = .ok (some c) ∧
      byteVal c ≤ bilinearAt (continued f Int.toNat Int.toNat) (edgeCoord w xp) (edgeCoord h yp) ∧
      bilinearAt (continued f Int.toNat Int.toNat) (edgeCoord w xp) (edgeCoord h yp) < byteVal c + 1) := by
  obtain ⟨ex, nx⟩ := truncInt_fits hx
  obtain ⟨ey, ny⟩ := truncInt_fits hy
  obtain ⟨a, a', ga, eA, a0, a1, a2, a3, gA, fA, cA⟩ := awpIndex_spec (n := w) (q := xp) hw
  obtain ⟨b, b', gb, eB, b0, b1, b2, b3, gB, fB, cB⟩ := awpIndex_spec (n := h) (q := yp) hh
  unfold awpFillPixel
  rw [ex, ey]
  simp only [Res.ok_bind]
  rw [if_neg (by omega), hs.width_eq, hs.height_eq, eA, eB]
  simp only
  constructor
  · intro hi
    have h1 : ga = false := by
      by_contra hne
      exact gA.mp (by simpa using hne) hi.1
    have h2 : gb = false := by
      by_contra hne
      exact gB.mp (by simpa using hne) hi.2
    rw [h1, h2]
    rfl
  · intro hi
    have hg : (ga || gb) = true := by
      by_cases h1 : Interior w xp
      · have h2 : ¬ Interior h yp := fun h2 => hi ⟨h1, h2⟩
        rw [gB.mpr h2, Bool.or_true]
      · rw [gA.mpr h1, Bool.true_or]
    rw [if_pos hg, readFour_spec hs ⟨a0, a1⟩ ⟨a2, a3⟩ ⟨b0, b1⟩ ⟨b2, b3⟩]
    simp only [Res.ok_bind]
    have hr := bilinearAt_range (continued_range (f := f) Int.toNat Int.toNat) (edgeCoord w xp) (edgeCoord h yp)
    obtain ⟨I, eI, hI⟩ := clampByte_floor hr.1 hr.2
    have key : bilinear (xp - ratTrunc xp) (yp - ratTrunc yp) ((f a.toNat b.toNat).toNat : Rat) ((f a'.toNat b.toNat).toNat : Rat)
        ((f a.toNat b'.toNat).toNat : Rat) ((f a'.toNat b'.toNat).toNat : Rat) =
        bilinearAt (continued f Int.toNat Int.toNat) (edgeCoord w xp) (edgeCoord h yp) := by
      unfold bilinearAt continued byteVal
      rw [← fA, ← fB] at *
      unfold bilinear
      rcases cA with ⟨uA, vA⟩ | ⟨vA, uA⟩ <;> rcases cB with ⟨uB, vB⟩ | ⟨vB, uB⟩
      · rw [uA, uB, vA, vB]
      · rw [uA, vA, uB, ← vB]
        ring
      · rw [uB, vB, uA, ← vA]
        ring
      · rw [uA, uB, ← vA, ← vB]
        ring
    rw [key, eI]
    exact ⟨clampByte I, rfl, hI⟩

/-- C92. Filling the background of a whole image. -/
theorem c92_fill {mode : AwpMode} {color : Byte} {img dest : GImage Byte} {t : Aff Rat} {noise : Nat → Nat → Rat} (hd : dest.Wf)
    {dw dh : Nat} {g : Nat → Nat → Byte} {o : Nat → Nat → Option Byte} (h0 : dest.Shows dw dh g)
    (ho : ∀ x y : Nat, x < dw → y < dh →
      awpFillPixel mode color img (y * t.t2 + t.t4 + x * t.t0) (y * t.t3 + t.t5 + x * t.t1) (noise x y) = .ok (o x y)) :
    ∃ d, awpFill mode color img dest t noise = .ok d ∧ d.Wf ∧ d.Shows dw dh (fun x y => (o x y).getD (g x y)) := by
  have e1 := h0.width_eq
  have e2 := h0.height_eq
  subst e1 e2
  obtain ⟨d, e, hl, hv⟩ := fill_keep (st := dest.stride) (H := dest.height) (w := dest.width) (g := g) (o := o) (d0 := dest.data)
    (body := fun y x d => do
      let b ← awpFillPixel mode color img (y * t.t2 + t.t4 + x * t.t0) (y * t.t3 + t.t5 + x * t.t1) (noise x y)
      putSome d (y * dest.stride + x) b) hd.stride_ge hd.length_eq h0.pixel_eq (by
      intro y x d hy hx _
      rw [ho x y hx hy]
      rfl)
  refine ⟨{ dest with data := d }, ?_, ⟨hd.stride_ge, hl⟩, ⟨rfl, rfl, hv⟩⟩
  unfold awpFill
  rw [e]
  rfl

end

/-! ## Findings -/

/-- C92. Repetition replaces pixels that come from the image: at the second to last column of an image with 4 columns the pixel of
the last column is taken. -/
theorem c92_repeat_jump : awpFillPixel .repeat 0 ⟨4, 4, 4, [1, 2, 3, 4, 1, 2, 3, 4, 1, 2, 3, 4, 1, 2, 3, 4]⟩ 2 1 0 = .ok (some 4) ∧
    awpSample ⟨4, 4, 4, [1, 2, 3, 4, 1, 2, 3, 4, 1, 2, 3, 4, 1, 2, 3, 4]⟩ 2 1 = .ok (some 3) := by decide +kernel

/-- C92. The formula for the inverse is wrong for a general step that turns and scales the directions differently; no such step is
used. -/
theorem c92_general_step : affApply (fillInverse ((0 : Rat), 0) (0, 0) 1 2 0 1) (affApply (updForward affId (0, 0) (0, 0) 1 2 0 1) (1, 0)) = (2, 0) := by
  decide +kernel

theorem awpBlur_zero (m : FloatMath Rat) (junkB : Nat → Rat) (img : GImage Byte) (sx : Rat) (r : GImage Byte) :
    awpBlur m junkB img sx 0 ≠ .ok r := by
  intro e
  unfold awpBlur at e
  obtain ⟨_, _, e⟩ := Res.bind_eq_ok.mp e
  obtain ⟨_, _, e⟩ := Res.bind_eq_ok.mp e
  simp only at e
  obtain ⟨_, _, e⟩ := Res.bind_eq_ok.mp e
  obtain ⟨_, _, e⟩ := Res.bind_eq_ok.mp e
  obtain ⟨k, ek, e⟩ := Res.bind_eq_ok.mp e
  unfold kernelGauss at ek
  rw [if_neg (by norm_num)] at ek
  exact absurd ek (by simp)

/-- C92 fails for the warp itself: the first buffer is smoothed in `y` with a Gaussian of width 0, which the filter rejects. No image
is ever warped, for all images, parameters, backgrounds and settings. -/
theorem c92_never (m : FloatMath Rat) (junkB : Nat → Rat) (img : GImage Byte) (p : AwpParam Rat) (mode : AwpMode) (color : Byte) (sigma : Rat)
    (noise : Nat → Nat → Rat) (r : GImage Byte × Aff Rat × Aff Rat) : awpRun m junkB img p mode color sigma noise ≠ .ok r := by
  intro e
  unfold awpRun at e
  obtain ⟨⟨s1, s2, s3⟩, _, e⟩ := Res.bind_eq_ok.mp e
  simp only at e
  obtain ⟨_, _, e⟩ := Res.bind_eq_ok.mp e
  obtain ⟨_, _, e⟩ := Res.bind_eq_ok.mp e
  obtain ⟨_, _, e⟩ := Res.bind_eq_ok.mp e
  obtain ⟨b, eb, e⟩ := Res.bind_eq_ok.mp e
  unfold awpSkew at eb
  obtain ⟨_, _, eb⟩ := Res.bind_eq_ok.mp eb
  exact awpBlur_zero _ _ _ _ _ eb

/-! ## Examples -/

/-- Sine and cosine on the rational numbers with a right angle at every number that is not 0. -/
def quarterMath : FloatMath Rat where
  pi := 2
  sqrt := id
  sin a := if a = 0 then 0 else 1
  cos a := if a = 0 then 1 else 0
  exp _ := 1
  atan2 _ _ := 0

example : TrigOk quarterMath := ⟨fun a => by unfold quarterMath; by_cases h : a = 0 <;> simp [h], rfl, rfl⟩

/-- An image of 20 by 10 pixels, turned by a right angle, compressed to a half and enlarged three times: 10 by 20, 5 by 20 and 15 by
60 pixels with a border of one pixel on all sides. -/
example : (match awpResizeAll quarterMath 20 10 ⟨3, 0, 2, 1⟩ with
    | .ok (s1, s2, s3) => decide ((s1.width, s1.height) = (12, 22) ∧ (s2.width, s2.height) = (7, 22) ∧ (s3.width, s3.height) = (17, 62) ∧
      affApply s3.fwd (0, 0) = (16, 1) ∧ affApply s3.inv (16, 1) = (0, 0))
    | _ => false) = true := by decide +kernel

/-- Sine and cosine of the real numbers. -/
example : TrigOk (K := ℝ) ⟨Real.pi, Real.sqrt, Real.sin, Real.cos, Real.exp, fun y x => Complex.arg ⟨x, y⟩⟩ :=
  ⟨fun a => by have := Real.cos_sq_add_sin_sq a; simp only; nlinarith, Real.cos_zero, Real.sin_zero⟩

example : Interior 10 4 ∧ ¬ Interior 10 8 ∧ IntRange 8 := by
  unfold Interior IntRange
  norm_num

end Nx
