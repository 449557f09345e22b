import Verif.Props.Fast9
import Mathlib.Data.Finset.Prod
import Mathlib.Order.Interval.Finset.Defs
import Mathlib.Data.Int.Interval
import Mathlib.Algebra.BigOperators.Group.Finset.Basic

/-! # Specification of the FAST detector: maxima among the corners, intensity centroid -/

namespace Nx

open scoped BigOperators

/-- `ms` are, in raster order, the corners of the image whose score is larger than that of all
neighbouring corners, the first `work` corners being considered. -/
def FastMaxima (img : UcImage) (thr : Int) (work : Nat) (ms : List Corner) : Prop :=
  ∃ l : List (Nat × Nat), RasterPos l ∧ (∀ x y : Nat, (x, y) ∈ l ↔ Inside img x y ∧ FastCorner img thr x y) ∧
    ∃ cs : List Corner, cs.map (fun c => (c.x, c.y)) = (l.take work).map (fun p => ((p.1 : Int), (p.2 : Int))) ∧
      (∀ c ∈ cs, IsScore img c.x.toNat c.y.toNat c.score) ∧
      ms = cs.filter (fun c => decide (LocalMax cs c))

/-- The integer points of the open disc of radius `r`. -/
def disc (r : Nat) : Finset (Int × Int) :=
  (Finset.Icc (-(r : Int)) r ×ˢ Finset.Icc (-(r : Int)) r).filter (fun p => p.1 ^ 2 + p.2 ^ 2 < (r : Int) ^ 2)

/-- The first moments of the disc around (x, y): of the columns and of the rows. -/
def discMoments (I : Int → Int → Int) (r : Nat) (x y : Int) : Int × Int :=
  (∑ p ∈ disc r, p.1 * I (x + p.1) (y + p.2), ∑ p ∈ disc r, p.2 * I (x + p.1) (y + p.2))

/-- The brightness of a pixel (0 outside of the image). -/
def brightness (img : UcImage) (x y : Int) : Int :=
  match img.pixel x y with
  | some v => v.toNat
  | none => 0

/-- The orientation of a corner: that of the centroid of the disc around it, 0 without
orientations or when the square of side `2r` around it leaves the image. -/
def cornerOri {K : Type} [Zero K] (at2 : Int → Int → K) (img : UcImage) (radius : Option Nat) (x y : Int) : K :=
  match radius with
  | none => 0
  | some r =>
    if (r : Int) ≤ x ∧ x + r < img.width ∧ (r : Int) ≤ y ∧ y + r < img.height then
      at2 (discMoments (brightness img) r x y).2 (discMoments (brightness img) r x y).1
    else 0

end Nx
