import Verif.Model.Graphics
import Mathlib.Analysis.SpecialFunctions.Trigonometric.Basic

/-! # Sets of points of the plane that are drawn -/

namespace Nx

/-- The points of a piece of a path. -/
def Seg.ink : Seg ℝ → Set (ℝ × ℝ)
  | .line a b => {p | ∃ t : ℝ, 0 ≤ t ∧ t ≤ 1 ∧ p = ((1 - t) * a.1 + t * b.1, (1 - t) * a.2 + t * b.2)}
  | .curve a c d b => {p | ∃ t : ℝ, 0 ≤ t ∧ t ≤ 1 ∧
      p = ((1 - t) ^ 3 * a.1 + 3 * (1 - t) ^ 2 * t * c.1 + 3 * (1 - t) * t ^ 2 * d.1 + t ^ 3 * b.1,
           (1 - t) ^ 3 * a.2 + 3 * (1 - t) ^ 2 * t * c.2 + 3 * (1 - t) * t ^ 2 * d.2 + t ^ 3 * b.2)}
  | .arc m r s e => {p | ∃ t : ℝ, s ≤ t ∧ t ≤ e ∧ p = (m.1 + r * Real.cos t, m.2 + r * Real.sin t)}

/-- The points of a path. -/
def inkOf (l : List (Seg ℝ)) : Set (ℝ × ℝ) := {p | ∃ s ∈ l, p ∈ s.ink}

/-- The colour that a reader of the pixels as red, green, blue and alpha bytes sees, on a machine that stores the low byte first. -/
def seen {K : Type} (image : Bool) (k : Colour K) : Colour K := if image then ⟨k.b, k.g, k.r, k.a⟩ else k

/-- From `g` to `g'` exactly these sets of points have been stroked, in this order, with these colours and widths. -/
structure Drawn (g g' : Gc ℝ) (l : List (Set (ℝ × ℝ) × Colour ℝ × ℝ)) : Prop where
  image_eq : g'.image = g.image
  no_err : g'.c.err = false
  strokes_eq : ∃ ss, g'.c.strokes = g.c.strokes ++ ss ∧ ss.map (fun s => (inkOf s.path, seen g.image s.colour, s.width)) = l

/-- The line from `a` to `b`. -/
def lineSet (a b : ℝ × ℝ) : Set (ℝ × ℝ) :=
  {p | ∃ t : ℝ, 0 ≤ t ∧ t ≤ 1 ∧ p.1 = a.1 + t * (b.1 - a.1) ∧ p.2 = a.2 + t * (b.2 - a.2)}

/-- The outline of a rectangle. -/
def boxSet (x y w h : ℝ) : Set (ℝ × ℝ) :=
  {p | x ≤ p.1 ∧ p.1 ≤ x + w ∧ y ≤ p.2 ∧ p.2 ≤ y + h ∧ (p.1 = x ∨ p.1 = x + w ∨ p.2 = y ∨ p.2 = y + h)}

/-- The circle. -/
def circleSet (x y r : ℝ) : Set (ℝ × ℝ) := {p | (p.1 - x) ^ 2 + (p.2 - y) ^ 2 = r ^ 2}

/-- The marks with centre `(x, y)` in a square of side `2 * r`. -/
def markSet (x y r : ℝ) : MarkType → Set (ℝ × ℝ)
  | .none => ∅
  | .point => circleSet x y r
  | .square => {p | max |p.1 - x| |p.2 - y| = r}
  | .diamond => {p | |p.1 - x| + |p.2 - y| = r}
  | .plus => {p | (p.1 = x ∧ |p.2 - y| ≤ r) ∨ (p.2 = y ∧ |p.1 - x| ≤ r)}
  | .cross => {p | |p.1 - x| = |p.2 - y| ∧ |p.2 - y| ≤ r}

/-- A stroke, unless it is the empty mark. -/
noncomputable def markDrawn (ty : MarkType) (x y size : ℝ) (k : Colour ℝ) : List (Set (ℝ × ℝ) × Colour ℝ × ℝ) :=
  if ty = .none then [] else [(markSet x y (size / 2) ty, k, 3 / 2)]

/-- Cosine and sine. -/
noncomputable def cosSin (t : ℝ) : ℝ × ℝ := (Real.cos t, Real.sin t)

end Nx
