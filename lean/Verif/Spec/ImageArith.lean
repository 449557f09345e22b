import Verif.Spec.Sample

/-!
# Specification of image arithmetic and derivatives
-/

namespace Nx

/-- `n` samples, extended by one on both sides along the straight line through the last two. -/
def extrapolate (n : Nat) (s : Nat → Rat) (i : Int) : Rat :=
  if i < 0 then 2 * s 0 - s 1 else if i < n then s i.toNat else 2 * s (n - 1) - s (n - 2)

/-- The difference of the two neighbours. -/
def neighbourDiff (n : Nat) (s : Nat → Rat) (i : Nat) : Rat :=
  extrapolate n s ((i : Int) + 1) - extrapolate n s ((i : Int) - 1)

/-- The samples of all channels as one row. -/
def GImage.flat {α : Type} (nc : Nat) (img : GImage α) : GImage α := { img with width := nc * img.width }

/-- The samples in the order of the rows. -/
def scan {α : Type} (w h : Nat) (f : Nat → Nat → α) : List α :=
  (List.range h).flatMap fun y => (List.range w).map fun x => f x y

end Nx
