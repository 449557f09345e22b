/-!
# Specification of bit counting and bit sets
-/

namespace Nx

/-- Number of one bits: how many positions `i < w` hold a one. -/
def onesCount {w : Nat} (x : BitVec w) : Nat :=
  (List.range w).countP (fun i => x.getLsbD i)

/-- A bit set as a function, updated at one position. -/
def setBit (f : Nat → Bool) (i : Nat) (v : Bool) : Nat → Bool :=
  fun j => if j = i then v else f j

end Nx
