import Verif.Props.Brief

/-! # A map of descriptors as a list of pairs -/

namespace Nx

/-- The position `k` holds the first of the entries that are nearest to `desc`. -/
def NearestAt (l : List (UInt64 × Bytes)) (desc : Bytes) (k : Nat) (e : UInt64 × Bytes) : Prop :=
  l[k]? = some e ∧ ∀ j e', l[j]? = some e' → hamming desc e.2 ≤ hamming desc e'.2 ∧ (j < k → hamming desc e.2 < hamming desc e'.2)

end Nx
