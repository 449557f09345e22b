import Verif.Spec.Sample
import Verif.Spec.ImageFilter
import Verif.Spec.ImageArith
import Verif.Model.SiftDog

/-!
# Specification of the scale space of SIFT

Pictures are functions of column and row. `radius` gives the radius of the window for a width of the Gaussian, and `gauss` its values.
-/

namespace Nx

/-- A picture smoothed over windows with the same weights in both directions. -/
def blurred (w h r : Nat) (wt : Nat → Rat) (f : Nat → Nat → Rat) (x y : Nat) : Rat :=
  windowSum h r wt (fun j => windowSum w r wt (fun i => f i j) x) y

/-- Weights of a window that add up to one and are proportional to a function. -/
structure GaussWeights (r : Nat) (g wt : Nat → Rat) : Prop where
  normal : Normal r wt
  nonneg : ∀ k, 0 ≤ wt k
  proportional : ∀ i j, wt i * g j = wt j * g i

/-- The pictures `L 0, L 1, …, L top`: each is the one before smoothed with a Gaussian of the width `step i`. -/
def ScaleSpace {K : Type} (radius : K → Nat) (gauss : K → Nat → Rat) (step : Nat → K) (w h top : Nat) (L : Nat → Nat → Nat → Rat) : Prop :=
  ∀ i < top, ∃ wt, GaussWeights (radius (step i)) (gauss (step i)) wt ∧
    ∀ x y, x < w → y < h → L (i + 1) x y = blurred w h (radius (step i)) wt (L i) x y

/-- An image without padding that shows a picture. -/
structure Plain (img : GImage Rat) (w h : Nat) (f : Nat → Nat → Rat) : Prop where
  wf : img.Wf
  stride : img.stride = w
  «shows» : img.Shows w h f

/-- Gradients and differences that belong to the scale `i` of a scale space: the gradients are those of level `i - 1`. -/
structure ScaleImages (w h i : Nat) (L : Nat → Nat → Nat → Rat) (gx gy : GImage Rat) (d : Dogs Rat) : Prop where
  gx_wf : gx.Wf
  gy_wf : gy.Wf
  gx_eq : gx.Shows w h (fun x y => neighbourDiff w (fun j => L (i - 1) j y) x)
  gy_eq : gy.Shows w h (fun x y => neighbourDiff h (fun j => L (i - 1) x j) y)
  m_wf : d.m.Wf
  c_wf : d.c.Wf
  p_wf : d.p.Wf
  m_eq : d.m.Shows w h (fun x y => L (i - 1) x y - L i x y)
  c_eq : d.c.Shows w h (fun x y => L i x y - L (i + 1) x y)
  p_eq : d.p.Shows w h (fun x y => L (i + 1) x y - L (i + 2) x y)

/-- Searching all octaves of the picture `f`: as long as both sides are above the limit there is a scale space of `n + 2` steps, its scales `1` to `n` are
searched in this order, and the next octave takes every second pixel of level `n`. -/
inductive Octaves {K S : Type} (radius : K → Nat) (gauss : K → Nat → Rat) (step : Nat → K) (sigma : K) (n limit : Nat)
    (dog : Int → K → Nat → GImage Rat → GImage Rat → Dogs Rat → S → Res S) : Int → Nat → Nat → (Nat → Nat → Rat) → S → S → Prop
  | stop (o w h f s) : ¬ (limit < w ∧ limit < h) → Octaves radius gauss step sigma n limit dog o w h f s s
  | next (o w h f s) (L : Nat → Nat → Nat → Rat) (run : Nat → S) (s') : limit < w → limit < h → L 0 = f →
      ScaleSpace radius gauss step w h (n + 2) L → run 0 = s →
      (∀ i, 1 ≤ i → i ≤ n → ∃ gx gy d, ScaleImages w h i L gx gy d ∧ dog o sigma i gx gy d (run (i - 1)) = .ok (run i)) →
      Octaves radius gauss step sigma n limit dog (o + 1) (w / 2) (h / 2) (fun x y => L n (2 * x) (2 * y)) (run n) s' →
      Octaves radius gauss step sigma n limit dog o w h f s s'

end Nx
