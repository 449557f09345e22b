import Verif.Model.Harris
import Verif.Spec.ImageArith
import Verif.Spec.ImageFilter

/-!
# What a Harris corner is
-/

namespace Nx

/-- A position at least two pixels away from the border whose score is above the threshold and above that of its eight neighbours. -/
structure IsCorner (w h : Nat) (s : Nat → Nat → Rat) (thr : Rat) (p : Nat × Nat) : Prop where
  left : 2 ≤ p.1
  right : p.1 + 2 < w
  top : 2 ≤ p.2
  bottom : p.2 + 2 < h
  high : thr < s p.1 p.2
  peak : ∀ x y, x ≤ p.1 + 1 → p.1 ≤ x + 1 → y ≤ p.2 + 1 → p.2 ≤ y + 1 → ¬ (x = p.1 ∧ y = p.2) → s x y < s p.1 p.2

/-- Row by row, each from left to right. -/
def ReadingOrder (p q : Nat × Nat) : Prop := p.2 < q.2 ∨ (p.2 = q.2 ∧ p.1 < q.1)

/-- The list of exactly the corners in reading order. -/
structure AllCorners (w h : Nat) (s : Nat → Nat → Rat) (thr : Rat) (P : List (Nat × Nat)) : Prop where
  ordered : P.Pairwise ReadingOrder
  mem_iff : ∀ p, p ∈ P ↔ IsCorner w h s thr p

/-- The keypoint number `i` at a position. -/
def keyAt (s : Nat → Nat → Rat) (i : Nat) (p : Nat × Nat) : NumKey :=
  ⟨p.1, p.2, p.1, p.2, 0, 1, 1, s p.1 p.2, 0, i⟩

/-- Horizontal and vertical difference of gray values between 0 and 1. -/
def gradX (w : Nat) (f : Nat → Nat → Byte) (x y : Nat) : Rat := neighbourDiff w (fun i => byteVal (f i y)) x / 255
def gradY (h : Nat) (f : Nat → Nat → Byte) (x y : Nat) : Rat := neighbourDiff h (fun i => byteVal (f x i)) y / 255

/-- Weighted mean of the products of two functions in a window of radius `r`. -/
def moment (w h r : Nat) (wt : Nat → Rat) (a b : Nat → Nat → Rat) (x y : Nat) : Rat :=
  windowSum h r wt (fun j => windowSum w r wt (fun i => a i j * b i j) x) y

/-- Determinant minus `k` times the square of the trace, for the matrix with diagonal `A`, `B` and the other entries `C`. -/
def response (k A B C : Rat) : Rat := (A * B - C ^ 2) - k * (A + B) ^ 2

/-- The score of every pixel for weights `wt` in a window of radius `r`. -/
def harrisMap (w h r : Nat) (wt : Nat → Rat) (k : Rat) (f : Nat → Nat → Byte) (x y : Nat) : Rat :=
  response k (moment w h r wt (gradX w f) (gradX w f) x y) (moment w h r wt (gradY h f) (gradY h f) x y)
    (moment w h r wt (gradX w f) (gradY h f) x y)

/-- A keypoint of a level of a pyramid. -/
def levelKey (s : Nat → Nat → Rat) (level : Nat) (l : HarrisLevel) (p : Nat × Nat) : NumKey :=
  { keyAt s 0 p with level := level, scale := l.scale, sigma := l.sigma }

/-- The keypoint with the number `i`. -/
def withId (i : Nat) (q : NumKey) : NumKey := { q with id := i }

end Nx
