import Verif.Model.Homography

/-!
# Specification of the marks left by the robust estimations
-/

namespace Nx

/-- A match without its mark. -/
def PMatch.clear {K : Type} (c : PMatch K) : PMatch K := { c with inlier := false }

/-- The matches `corr'` are the matches `corr`, the first `n` of them in some order and marked iff they have the property. -/
structure MarkedBy {K : Type} (P : PMatch K → Prop) (n : Nat) (corr corr' : List (PMatch K)) : Prop where
  perm : ((corr'.take n).map PMatch.clear).Perm ((corr.take n).map PMatch.clear)
  rest : corr'.drop n = corr.drop n
  mark : ∀ c ∈ corr'.take n, c.inlier = true ↔ P c

open Classical in
/-- The number of the first `n` matches with a property. -/
noncomputable def nWith {K : Type} (P : PMatch K → Prop) (n : Nat) (corr : List (PMatch K)) : Nat :=
  (corr.take n).countP fun c => decide (P c)

/-- The number of marks among the first `n` matches. -/
def nMarked {K : Type} (n : Nat) (corr : List (PMatch K)) : Nat := (corr.take n).countP fun c => c.inlier

end Nx
