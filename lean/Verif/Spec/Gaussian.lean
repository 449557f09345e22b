import Mathlib.Analysis.Real.Sqrt
import Mathlib.Analysis.SpecialFunctions.Log.Basic
import Mathlib.MeasureTheory.Constructions.BorelSpace.Basic
import Mathlib.MeasureTheory.Measure.Lebesgue.Basic

/-!
# Specification of the polar method of Marsaglia
-/

namespace Nx

open MeasureTheory

/-- Consecutive numbers, two at a time. -/
def inPairs {α : Type} : List α → List (α × α)
  | a :: b :: l => (a, b) :: inPairs l
  | _ => []

/-- The square of the distance from the origin. -/
def normSq2 {K : Type} [Add K] [Mul K] (v : K × K) : K := v.1 * v.1 + v.2 * v.2

/-- The open unit disc. -/
def openDisc : Set (ℝ × ℝ) := {v | normSq2 v < 1}

/-- The uniform distribution on the open unit disc. -/
noncomputable def uniformDisc : Measure (ℝ × ℝ) := (volume openDisc)⁻¹ • volume.restrict openDisc

end Nx
