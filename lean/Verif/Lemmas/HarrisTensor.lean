import Mathlib.Algebra.Order.BigOperators.Ring.Finset
import Verif.Lemmas.Harris
import Verif.Props.ImageArith
import Verif.Props.ImageFilter

/-!
# Lemmas about the images of products and the score
-/

namespace Nx

/-- The pixels before position `(x, y)` are `f`, the others `g`. -/
def mixed (f g : Nat → Nat → Rat) (y x : Nat) (x' y' : Nat) : Rat := if y' < y ∨ (y' = y ∧ x' < x) then f x' y' else g x' y'

theorem mixed_step {st w H : Nat} {f g : Nat → Nat → Rat} {d : List Rat} {y x : Nat} (h : Pix st w H d (mixed f g y x)) (hst : w ≤ st)
    (hx : x < w) (hy : y < H) :
    readAt d (y * st + x) = .ok (g x y) ∧
      ∃ d', writeAt d (y * st + x) (f x y) = .ok d' ∧ Pix st w H d' (mixed f g y (x + 1)) := by
  constructor
  · rw [h.read hx hy]
    unfold mixed
    rw [if_neg (by omega)]
  · obtain ⟨d', e, h'⟩ := h.write hst hx hy (f x y)
    refine ⟨d', e, h'.congr ?_⟩
    intro x' y' _ _
    unfold mixed
    by_cases hc : x' = x ∧ y' = y
    · obtain ⟨rfl, rfl⟩ := hc
      rw [if_pos ⟨rfl, rfl⟩, if_pos (by omega)]
    · rw [if_neg hc]
      by_cases h1 : y' < y ∨ (y' = y ∧ x' < x)
      · rw [if_pos h1, if_pos (by omega)]
      · rw [if_neg h1, if_neg (by omega)]

theorem mixed_row {st w H : Nat} {f g : Nat → Nat → Rat} {d : List Rat} {y : Nat} (h : Pix st w H d (mixed f g y w)) :
    Pix st w H d (mixed f g (y + 1) 0) := by
  apply h.congr
  intro x' y' hx' _
  unfold mixed
  by_cases h1 : y' < y ∨ (y' = y ∧ x' < w)
  · rw [if_pos h1, if_pos (by omega)]
  · rw [if_neg h1, if_neg (by omega)]

theorem mixed_start {st w H : Nat} {f g : Nat → Nat → Rat} {d : List Rat} (h : Pix st w H d g) : Pix st w H d (mixed f g 0 0) := by
  apply h.congr
  intro x' y' _ _
  unfold mixed
  rw [if_neg (by omega)]

theorem mixed_end {st w H : Nat} {f g : Nat → Nat → Rat} {d : List Rat} (h : Pix st w H d (mixed f g H 0)) : Pix st w H d f := by
  apply h.congr
  intro x' y' _ hy
  unfold mixed
  rw [if_pos (by omega)]

theorem products_spec {s0 s1 s2 w h : Nat} (h0 : w ≤ s0) (h1 : w ≤ s1) (h2 : w ≤ s2) {p : Products} {a b c : Nat → Nat → Rat}
    (ha : Pix s0 w h p.x2 a) (hb : Pix s1 w h p.y2 b) (hc : Pix s2 w h p.xy c) :
    ∃ q, forLoop h (fun y p => forLoop w (productBody s0 s1 s2 y) 0 p) 0 p = .ok q ∧
      Pix s0 w h q.x2 (fun x y => a x y * a x y) ∧ Pix s1 w h q.y2 (fun x y => b x y * b x y) ∧
      Pix s2 w h q.xy (fun x y => a x y * b x y) := by
  obtain ⟨q, e, q1, q2, q3⟩ := forLoop_spec (n := h) (i0 := 0) (s := p)
    (body := fun y p => forLoop w (productBody s0 s1 s2 y) 0 p)
    (fun y p => Pix s0 w h p.x2 (mixed (fun x y => a x y * a x y) a y 0) ∧ Pix s1 w h p.y2 (mixed (fun x y => b x y * b x y) b y 0) ∧
      Pix s2 w h p.xy (mixed (fun x y => a x y * b x y) c y 0)) (Nat.zero_le _)
    ⟨mixed_start ha, mixed_start hb, mixed_start hc⟩ (by
      intro y p _ hy hP
      obtain ⟨q, e, q1, q2, q3⟩ := forLoop_spec (n := w) (i0 := 0) (s := p) (body := productBody s0 s1 s2 y)
        (fun x p => Pix s0 w h p.x2 (mixed (fun x y => a x y * a x y) a y x) ∧
          Pix s1 w h p.y2 (mixed (fun x y => b x y * b x y) b y x) ∧
          Pix s2 w h p.xy (mixed (fun x y => a x y * b x y) c y x)) (Nat.zero_le _) hP (by
            intro x p _ hx hP
            obtain ⟨r0, d0, e0, k0⟩ := mixed_step hP.1 h0 hx hy
            obtain ⟨r1, d1, e1, k1⟩ := mixed_step hP.2.1 h1 hx hy
            obtain ⟨_, d2, e2, k2⟩ := mixed_step hP.2.2 h2 hx hy
            refine ⟨⟨d0, d1, d2⟩, ?_, k0, k1, k2⟩
            unfold productBody
            rw [r0, r1]
            simp only [Res.ok_bind]
            rw [e2]
            simp only [Res.ok_bind]
            rw [e0]
            simp only [Res.ok_bind]
            rw [e1]
            rfl)
      exact ⟨q, e, mixed_row q1, mixed_row q2, mixed_row q3⟩)
  exact ⟨q, e, mixed_end q1, mixed_end q2, mixed_end q3⟩

/-- The weights of a Gaussian function are determined by it. -/
theorem Gaussian.unique {r : Nat} {g wt wt' : Nat → Rat} (h0 : 0 < g 0) (h : Gaussian r g wt) (h' : Gaussian r g wt') :
    wt = wt' := by
  have e : ∀ {u : Nat → Rat}, Gaussian r g u → ∀ i, u i = u 0 / g 0 * g i := by
    intro u hu i
    have := hu.proportional i 0
    field_simp
    linarith
  have n : ∀ {u : Nat → Rat}, Gaussian r g u →
      u 0 / g 0 * (∑ t ∈ Finset.range (2 * r + 1), g ((t : Int) - r).natAbs) = 1 := by
    intro u hu
    rw [← hu.normal, Finset.mul_sum]
    apply Finset.sum_congr rfl
    intro t _
    rw [← e hu]
  have hG : (∑ t ∈ Finset.range (2 * r + 1), g ((t : Int) - r).natAbs) ≠ 0 := by
    intro hz
    have := n h
    rw [hz, mul_zero] at this
    norm_num at this
  have : wt 0 / g 0 = wt' 0 / g 0 := by
    have h1 := n h
    rw [← n h'] at h1
    exact mul_right_cancel₀ hG h1
  funext i
  rw [e h, e h', this]

/-- Smoothing in place with a buffer and the same kernel for both directions. -/
theorem smooth_inplace {junk junkB : Nat → Rat} {src : GImage Rat} {w h : Nat} {f : Nat → Nat → Rat} (hw : src.Wf)
    (hsz : w * h ≤ 2147483647) (hs : src.Shows w h f) (hw2 : 2 ≤ w) (hh2 : 2 ≤ h) {t : Int} (ht : 0 ≤ t) {g : Nat → Rat}
    (hg0 : 0 < g 0) (hg : ∀ j, 0 ≤ g j) {b : List Rat} (hb : w + 2 * ((kernelSize t).toNat / 2) ≤ b.length)
    (hb' : h + 2 * ((kernelSize t).toNat / 2) ≤ b.length) :
    ∃ b' d, ∃ wt : Nat → Rat, smooth id .ok junk junkB none src t t g g (some b) = .ok (b', d) ∧ d.Wf ∧ b'.length = b.length ∧
      Gaussian ((kernelSize t).toNat / 2) g wt ∧
      d.Shows w h (fun x y => windowSum h ((kernelSize t).toNat / 2) wt
        (fun j => windowSum w ((kernelSize t).toNat / 2) wt (fun i => f i j) x) y) := by
  obtain ⟨wx, wy, g1, g2, hall⟩ := smooth_buffer (conv := id) (store := .ok) (junk := junk) (junkB := junkB) (dest := none)
    (by intro d h; cases h) hw hsz hs hw2 hh2 ht ht hg0 hg hg0 hg (buffer := some b) (by
      intro b' h
      cases h
      exact ⟨hb, hb'⟩)
  obtain ⟨b', d, e, q1, q2, q3⟩ := hall _ _ (fun _ _ _ _ => rfl) (fun _ _ _ _ => rfl)
  have := g2.unique hg0 g1
  subst this
  exact ⟨b', d, wy, e, q1, q3 b rfl, g1, q2⟩

/-- The determinant of moments is not negative. -/
theorem moment_det {w h r : Nat} {wt : Nat → Rat} (hp : ∀ k, 0 ≤ wt k) (a b : Nat → Nat → Rat) (x y : Nat) :
    moment w h r wt a b x y ^ 2 ≤ moment w h r wt a a x y * moment w h r wt b b x y := by
  have e : ∀ a b : Nat → Nat → Rat, moment w h r wt a b x y =
      ∑ p ∈ Finset.range (2 * r + 1) ×ˢ Finset.range (2 * r + 1),
        wt ((p.1 : Int) - r).natAbs * (wt ((p.2 : Int) - r).natAbs *
          (a (nearest w ((x : Int) + p.2 - r)) (nearest h ((y : Int) + p.1 - r)) *
            b (nearest w ((x : Int) + p.2 - r)) (nearest h ((y : Int) + p.1 - r)))) := by
    intro a b
    unfold moment windowSum
    rw [Finset.sum_product]
    apply Finset.sum_congr rfl
    intro t _
    rw [Finset.mul_sum]
  rw [e a b, e a a, e b b]
  apply Finset.sum_sq_le_sum_mul_sum_of_sq_le_mul
  · intro p _
    have h1 := hp ((p.1 : Int) - r).natAbs
    have h2 := hp ((p.2 : Int) - r).natAbs
    have h3 := mul_self_nonneg (a (nearest w ((x : Int) + p.2 - r)) (nearest h ((y : Int) + p.1 - r)))
    exact mul_nonneg h1 (mul_nonneg h2 h3)
  · intro p _
    have h1 := hp ((p.1 : Int) - r).natAbs
    have h2 := hp ((p.2 : Int) - r).natAbs
    have h3 := mul_self_nonneg (b (nearest w ((x : Int) + p.2 - r)) (nearest h ((y : Int) + p.1 - r)))
    exact mul_nonneg h1 (mul_nonneg h2 h3)
  · intro p _
    apply le_of_eq
    ring

end Nx
