import Verif.Model.SiftStore
import Verif.Spec.SiftMatch

/-!
# Specification of the store of SIFT keypoints
-/

namespace Nx

/-- The store holds exactly these keypoints and descriptors of 128 bytes, in this order. -/
structure StoreHolds {κ : Type} (s : KeyStore κ) (l : List (κ × List Byte)) : Prop where
  n_eq : s.n = l.length
  n_le : s.n ≤ s.cap
  keys_len : (s.keys.length : Int) = s.cap
  desc_len : (s.desc.length : Int) = s.cap * 128
  keys_eq : s.keys.take l.length = l.map (fun e => e.1)
  desc_eq : s.desc.take (l.length * 128) = (l.map (fun e => e.2)).flatten
  desc_128 : ∀ e ∈ l, e.2.length = 128

end Nx
