import Verif.Spec.Transform2D
import Verif.Model.Sample
import Mathlib.Data.Rat.Floor

/-! # Vocabulary for composed images -/

namespace Nx

/-- The corners of an image. -/
def corners (w h : Nat) : List (Rat × Rat) := [(0, 0), ((w : Rat), 0), ((w : Rat), (h : Rat)), (0, (h : Rat))]

/-- The point `p` of an image is shown at the position `P`, and it is in the image or less than a pixel left of or above it. -/
def Covers (q : Matrix (Fin 3) (Fin 3) Rat × GImage Byte) (P p : Rat × Rat) : Prop :=
  Projects q.1 p P ∧ -1 < p.1 ∧ p.1 < q.2.width ∧ -1 < p.2 ∧ p.2 < q.2.height

/-- The value composed at the position `P`: of the last image that covers it, or black. -/
def Composed (imgs : List (Matrix (Fin 3) (Fin 3) Rat × GImage Byte)) (P : Rat × Rat) (v : Byte) : Prop :=
  (∃ l1 q l2 p, imgs = l1 ++ q :: l2 ∧ Covers q P p ∧ (∀ q' ∈ l2, ∀ p', ¬ Covers q' P p') ∧
    q.2.data[⌊p.2⌋.toNat * q.2.stride + ⌊p.1⌋.toNat]? = some v) ∨
  ((∀ q ∈ imgs, ∀ p, ¬ Covers q P p) ∧ v = 0)

end Nx
