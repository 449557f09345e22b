import Verif.Spec.Panorama
import Verif.Spec.Mat
import Mathlib.Algebra.BigOperators.Group.Finset.Basic

/-! # Vocabulary for homographies between the images of a panorama -/

namespace Nx

/-- The number of inliers that counts: with fewer than twenty matches or twenty inliers there is no homography. -/
def inliersOf (nCorr found : Int) : Int := if 20 ≤ nCorr ∧ 20 ≤ found then found else 0

/-- The inliers of all pairs with an image. -/
def totalInliers (n : Nat) (inl : Nat → Nat → Int) (k : Nat) : Int := ∑ j ∈ Finset.range n, if j = k then 0 else inl k j + inl j k

/-- The length of the edge from `u` to `v`, for the homography from image `v` to image `u`. -/
def edgeCost (expCost : Int → Rat) (inl : Nat → Nat → Int) (u v : Nat) : Rat :=
  if u = v then 0 else if 0 < inl v u then expCost (inl v u) else -1

/-- The first image with the most inliers. -/
def IsReference (n : Nat) (inl : Nat → Nat → Int) (r : Nat) : Prop :=
  r < n ∧ (∀ k, k < n → totalInliers n inl k ≤ totalInliers n inl r) ∧ ∀ k, k < r → totalInliers n inl k < totalInliers n inl r

/-- A point `x` of image `v`, in homogeneous coordinates, is taken to `y` by the homographies on the way to `src`; `H v u` is the one from `v`
to `u`. -/
inductive SentTo {K : Type} [Field K] (H : Nat → Nat → M3 K) (src : Nat) (next : List Int) : Nat → (Fin 3 → K) → (Fin 3 → K) → Prop
  | here {x : Fin 3 → K} : SentTo H src next src x x
  | step {u v : Nat} {x y : Fin 3 → K} : v ≠ src → next[v]? = some (u : Int) → SentTo H src next u ((H v u).mat.mulVec x) y →
      SentTo H src next v x y

end Nx
