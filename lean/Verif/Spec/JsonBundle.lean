import Verif.Spec.JsonHeap
import Verif.Model.Keypoint
import Verif.Model.StringArray

/-!
# Specification of bundling

What it means that a value can be read back from a node, at once or after any further
construction calls that leave the nodes of the bundle alone.
-/

namespace Nx

/-- Nodes made by some sequence of allowed construction calls: the heap and the
abstract state. -/
def Reaches (H : JHeap) (S : List SNode) : Prop := ∃ ops, sRun [] ops = some S ∧ jhRun [] ops = .ok H

/-- The container a call adds to. -/
def JhOp.target : JhOp → Option Nat
  | .new .. => none
  | .arrayAdd a _ => some a
  | .objectAdd o .. => some o

/-- No call adds to a node in the range `lo … hi - 1`. -/
def LeavesAlone (lo hi : Nat) (ops : List JhOp) : Prop :=
  ∀ op ∈ ops, ∀ t, op.target = some t → ¬ (lo ≤ t ∧ t < hi)

/-- Whatever was constructed before, `bundle` makes a node of this type that is not yet
part of a container, and `unbundle` of that node yields `y`, now and after any further
construction calls that do not add to the nodes made by `bundle`. -/
def RoundTrip {β : Type} (bundle : JHeap → Res (JHeap × Nat)) (type : JNT)
    (unbundle : JHeap → Nat → Res β) (y : β) : Prop :=
  ∀ H S, Reaches H S → ∃ H' S' n, bundle H = .ok (H', n) ∧ Reaches H' S' ∧
    (∃ N, S'[n]? = some N ∧ N.type = type ∧ N.attached = false) ∧
    ∀ ops H'' S'', LeavesAlone H.length H'.length ops → sRun S' ops = some S'' → jhRun H' ops = .ok H'' →
      unbundle H'' n = .ok y

/-- What becomes of a keypoint: floating point fields go through their text, the id
through an `int`. -/
def reread (fmtE : BitVec 32 → Bytes) (atof : Bytes → BitVec 32) (k : Keypoint) : Keypoint :=
  { k with
    xs := atof (fmtE k.xs)
    ys := atof (fmtE k.ys)
    scale := atof (fmtE k.scale)
    sigma := atof (fmtE k.sigma)
    score := atof (fmtE k.score)
    ori := atof (fmtE k.ori)
    id := (k.id.setWidth 32).signExtend 64 }

/-- The strings `nx_string_array_get` returns for `k` positions from `i` on. -/
def readAll (h : Heap) (sa : SArr) (i : Nat) : Nat → Res (List (Option Bytes))
  | 0 => .ok []
  | k + 1 => do
    let p ← saGet sa i
    let s ← (Src.ofSlot p).read h
    let r ← readAll h sa (i + 1) k
    pure (s :: r)

end Nx
