import Verif.Model.Correspondence

/-!
# What the class of correspondences is meant to do

Objects are values: a list of pairs of statistics and matches, nothing is shared.
-/

namespace Nx

section
variable {K : Type} [Field K]

/-- The value of an object. -/
abbrev CorrVal (K : Type) := MStats K × List (PMatch K)

/-- `w` represents the values `vs`. -/
def Represents (w : CorrWorld K) (vs : List (CorrVal K)) : Prop :=
  w.objs.length = vs.length ∧
    ∀ (i : Nat) (v : CorrVal K), vs[i]? = some v →
      ∃ o, w.objs[i]? = some o ∧ w.heap[o.st]? = some v.1 ∧ o.ms = v.2

/-- No other object has the statistics of object `i`. -/
def Alone (w : CorrWorld K) (i : Nat) : Prop :=
  ∀ (j : Nat) (o o' : CorrObj K), j ≠ i → w.objs[i]? = some o → w.objs[j]? = some o' → o.st ≠ o'.st

/-- The object that an operation changes, if it changes one. -/
def CorrOp.changes : CorrOp K → Option Nat
  | .new | .clone _ | .copy _ => none
  | .add i _ | .mark i _ _ | .sort i | .clear i | .normalize i | .denormalize i => some i

/-- The object whose statistics an operation writes, if it writes some. -/
def CorrOp.writesStats : CorrOp K → Option Nat
  | .clear i | .normalize i | .denormalize i => some i
  | _ => none

/-- The operation is a copy. -/
def CorrOp.isCopy : CorrOp K → Bool
  | .copy _ => true
  | _ => false

/-- What the value of the changed object becomes. -/
inductive ChangesTo (sqrt : K → K) (sorter : List (PMatch K) → List (PMatch K)) [DecidableEq K] :
    CorrOp K → CorrVal K → CorrVal K → Prop
  | add (i m s ms) : ChangesTo sqrt sorter (.add i m) (s, ms) (s, ms ++ [m])
  | mark (i k b s ms m) (h : ms[k]? = some m) :
      ChangesTo sqrt sorter (.mark i k b) (s, ms) (s, ms.set k { m with inlier := b })
  | sort (i s ms) : ChangesTo sqrt sorter (.sort i) (s, ms) (s, sorter ms)
  | clear (i v) : ChangesTo sqrt sorter (.clear i) v (statsReset, [])
  | normalize (i s ms s' ms') (h : normalizeMatches sqrt ms.length ms = .ok (some (s', ms'))) :
      ChangesTo sqrt sorter (.normalize i) (s, ms) (s', ms')
  | denormalize (i s ms) :
      ChangesTo sqrt sorter (.denormalize i) (s, ms) (statsReset, ms.map (unscaleMatch s))

/-- What the values become. -/
inductive ValStep (sqrt : K → K) (sorter : List (PMatch K) → List (PMatch K)) [DecidableEq K] :
    CorrOp K → List (CorrVal K) → List (CorrVal K) → Prop
  | new (vs) : ValStep sqrt sorter .new vs (vs ++ [(statsReset, [])])
  | clone (i vs v) (h : vs[i]? = some v) : ValStep sqrt sorter (.clone i) vs (vs ++ [v])
  | copy (i vs v) (h : vs[i]? = some v) : ValStep sqrt sorter (.copy i) vs (vs ++ [v])
  | change (op i vs v v') (h : op.changes = some i) (hv : vs[i]? = some v) (hc : ChangesTo sqrt sorter op v v') :
      ValStep sqrt sorter op vs (vs.set i v')

/-- The steps of a program on values. -/
inductive ValRun (sqrt : K → K) (sorter : List (PMatch K) → List (PMatch K)) [DecidableEq K] :
    List (CorrOp K) → List (CorrVal K) → List (CorrVal K) → Prop
  | nil (vs) : ValRun sqrt sorter [] vs vs
  | cons (op ops vs vs' vs'') (h : ValStep sqrt sorter op vs vs') (t : ValRun sqrt sorter ops vs' vs'') :
      ValRun sqrt sorter (op :: ops) vs vs''

/-- The contract of `std::sort` with the comparison of costs. -/
def SortsByCost [LE K] (sorter : List (PMatch K) → List (PMatch K)) : Prop :=
  ∀ ms, (sorter ms).Perm ms ∧ (sorter ms).Pairwise fun a b => a.cost ≤ b.cost

end

end Nx
