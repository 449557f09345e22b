import Verif.Props.ImageFilter
import Verif.Props.Sample
import Verif.Props.Warp
import Verif.Model.Pyramid

/-!
# What the levels of an image pyramid are

Pictures are functions from columns and rows to 8-bit samples.
-/

namespace Nx

/-- Rounded down. -/
def RoundedDown (v : Rat) (c : Byte) : Prop := byteVal c ≤ v ∧ v < byteVal c + 1

/-- Radius of a window that covers four standard deviations. -/
noncomputable def blurRadius (σ : ℝ) : Nat := max 1 ((⌊8 * σ + 1⌋).toNat / 2)

/-- Rows and then columns are replaced by weighted means, rounded down; `g σ` are values of a Gaussian function. -/
def Blurred (g : ℝ → Nat → Rat) (σ : ℝ) (w h : Nat) (f q : Nat → Nat → Byte) : Prop :=
  ∃ (wx wy : Nat → Rat) (m : Nat → Nat → Byte), Gaussian (blurRadius σ) (g σ) wx ∧ Gaussian (blurRadius σ) (g σ) wy ∧
    (∀ x y, x < w → y < h → RoundedDown (windowSum w (blurRadius σ) wx (fun i => byteVal (f i y)) x) (m x y)) ∧
    ∀ x y, x < w → y < h → RoundedDown (windowSum h (blurRadius σ) wy (fun j => byteVal (m x j)) y) (q x y)

/-- Rows and then columns are replaced by weighted means of five around every second sample. -/
def Halved (w h : Nat) (f q : Nat → Nat → Byte) : Prop :=
  ∃ m : Nat → Nat → Byte, (∀ x y, x < w / 2 → y < h → (m x y).toNat = smooth5 w (fun i => (f i y).toNat) x) ∧
    ∀ x y, x < w / 2 → y < h / 2 → (q x y).toNat = smooth5 h (fun j => (m x j).toNat) y

/-- Every second pixel. -/
def Thinned (w h : Nat) (f q : Nat → Nat → Byte) : Prop := ∀ x y, x < w / 2 → y < h / 2 → q x y = f (2 * x) (2 * y)

/-- Interpolation at multiples of `1 / s`, rounded down. -/
def Shrunk (s : Rat) (f q : Nat → Nat → Byte) : Prop :=
  ∀ x y : Nat, RoundedDown (bilinearAt (continued f Int.toNat Int.toNat) (x / s) (y / s)) (q x y)

/-- The picture of which the rows follow each other without gaps at the start of the memory of an image. -/
structure FirstBytes (img : GImage Byte) (w h : Nat) (f : Nat → Nat → Byte) : Prop where
  width_eq : img.width = w
  height_eq : img.height = h
  data_eq : ∀ x y, x < w → y < h → img.data[y * w + x]? = some (f x y)

/-- Level zero: the given image, which is taken to be smoothed by 1/2 already, smoothed to `σ`. -/
def LevelZero (g : ℝ → Nat → Rat) (σ : ℝ) (w h : Nat) (f q : Nat → Nat → Byte) : Prop :=
  if σ = 1 / 2 then q = f else Blurred g (Real.sqrt (σ ^ 2 - (1 / 2) ^ 2)) w h f q

/-- Level `i + 1` of a pyramid with several levels for every octave: level `i` smoothed by the difference of the variances, in pixels of
its octave, and every second pixel of that if a new octave starts. -/
def NextFine (g : ℝ → Nat → Rat) (sig : Nat → ℝ) (steps w h i : Nat) (f q : Nat → Nat → Byte) : Prop :=
  let o := i / steps
  let σ := Real.sqrt (sig (i + 1) ^ 2 - sig i ^ 2) / 2 ^ o
  if (i + 1) % steps = 0 then ∃ t, Blurred g σ (w / 2 ^ o) (h / 2 ^ o) f t ∧ Thinned (w / 2 ^ o) (h / 2 ^ o) t q
  else Blurred g σ (w / 2 ^ o) (h / 2 ^ o) f q

/-- A level of a pyramid with its scale, sigma and picture. -/
structure HasLevel (pyr : List (PyrLevel (GImage Byte))) (i : Nat) (scale : Rat) (sigma : ℝ) (w h : Nat) (f : Nat → Nat → Byte) : Prop where
  level : ∃ img, pyr[i]? = some ⟨img, scale, sigma⟩ ∧ img.Wf ∧ img.Shows w h f ∧ img.stride = w

/-! ## How much images are smoothed -/

/-- What is known about an image: its size, the distance of its pixels and the variance of its smoothing, in pixels of the given
image. -/
structure Ghost where
  w : Nat
  h : Nat
  step : ℝ
  var : ℝ

/-- Effects of the functions for images: smoothing adds its variance and the weights 1, 6, 11, 6, 1 have variance 4/5. -/
noncomputable def ghostOps : PyrOps Ghost where
  alloc := ⟨0, 0, 1, 0⟩
  size i := (i.w, i.h)
  create i w h := .ok { i with w := w.toNat, h := h.toNat }
  copy _ s := .ok s
  smooth _ s σ := .ok { s with var := s.var + (σ * s.step) ^ 2 }
  downX _ s := .ok { s with w := s.w / 2, var := s.var + 4 / 5 * s.step ^ 2 }
  downY _ s := .ok { s with h := s.h / 2, step := 2 * s.step }
  down _ s := .ok ⟨s.w / 2, s.h / 2, 2 * s.step, s.var⟩
  scale _ s c := .ok ⟨(⌊(s.w : Rat) * c⌋).toNat, (⌊(s.h : Rat) * c⌋).toNat, s.step / c, s.var⟩

end Nx
