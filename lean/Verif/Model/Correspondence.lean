import Verif.Model.MatchStats

/-!
# Model of the class of correspondences, `src/vg_point_correspondence_2d.cc`

An object holds a vector of matches and a `std::shared_ptr` to statistics on the heap. The class declares neither a
copy constructor nor an assignment operator, so a copy of an object shares its statistics.

Simplifications. Exact arithmetic, see `Model/MatchStats.lean`; a division by zero while normalising ends the run with
`none`. `std::sort` is a parameter. Statistics stay allocated, which `std::shared_ptr` guarantees as long as an object
refers to them. The number of matches fits an `int`. Moving from an object is not modelled.
-/

namespace Nx

/-- `class VGPointCorrespondence2D`, `include/virg/nexus/vg_point_correspondence_2d.hpp:39-80`: where the statistics
are, and the matches. -/
structure CorrObj (K : Type) where
  st : Nat
  ms : List (PMatch K)
deriving DecidableEq, Repr

/-- The statistics on the heap and the objects of a program. -/
structure CorrWorld (K : Type) where
  heap : List (MStats K)
  objs : List (CorrObj K)
deriving DecidableEq, Repr

/-- The operations of a program on its objects; `copy` is the implicit copy constructor. -/
inductive CorrOp (K : Type)
  | new
  | clone (i : Nat)
  | copy (i : Nat)
  | add (i : Nat) (m : PMatch K)
  | mark (i k : Nat) (b : Bool)
  | sort (i : Nat)
  | clear (i : Nat)
  | normalize (i : Nat)
  | denormalize (i : Nat)

section
variable {K : Type} [Field K]

/-- `VGPointCorrespondence2D::add_match`, `include/virg/nexus/vg_point_correspondence_2d.hpp:82-99`, and
`add_keypoint_match`, `:101-112`: the vector afterwards and the result. -/
def addMatch (ms : List (PMatch K)) (m : PMatch K) : List (PMatch K) × Int :=
  let ms := ms ++ [m]
  (ms, (ms.length : Int))

/-- `VGPointCorrespondence2D::set_inlier`, `include/virg/nexus/vg_point_correspondence_2d.hpp:61`. -/
def setInlier (ms : List (PMatch K)) (k : Nat) (b : Bool) : Res (List (PMatch K)) := do
  let m ← readAt ms k
  writeAt ms k { m with inlier := b }

/-- `VGPointCorrespondence2D()`, `include/virg/nexus/vg_point_correspondence_2d.hpp:41-42`. -/
def newCorr (w : CorrWorld K) : CorrWorld K :=
  ⟨w.heap ++ [statsReset], w.objs ++ [⟨w.heap.length, []⟩]⟩

/-- The loop of `VGPointCorrespondence2D::clone`, `src/vg_point_correspondence_2d.cc:49-50`. -/
def pushAll : List (PMatch K) → List (PMatch K) → List (PMatch K)
  | [], acc => acc
  | m :: ms, acc => pushAll ms (acc ++ [m])

/-- `VGPointCorrespondence2D::clone`, `src/vg_point_correspondence_2d.cc:46-54`. -/
def cloneCorr (w : CorrWorld K) (i : Nat) : Res (CorrWorld K) := do
  let o ← readAt w.objs i
  let w1 := newCorr w
  let c ← readAt w1.objs w.objs.length
  let objs ← writeAt w1.objs w.objs.length { c with ms := pushAll o.ms c.ms }
  let s ← readAt w1.heap o.st
  let heap ← writeAt w1.heap c.st s
  pure ⟨heap, objs⟩

/-- The implicit copy constructor. -/
def copyCorr (w : CorrWorld K) (i : Nat) : Res (CorrWorld K) := do
  let o ← readAt w.objs i
  pure { w with objs := w.objs ++ [o] }

/-- A change of the matches of one object. -/
def withMatches (w : CorrWorld K) (i : Nat) (f : List (PMatch K) → Res (List (PMatch K))) : Res (CorrWorld K) := do
  let o ← readAt w.objs i
  let ms ← f o.ms
  let objs ← writeAt w.objs i { o with ms := ms }
  pure { w with objs := objs }

/-- A change of the statistics and the matches of one object. -/
def withBoth (w : CorrWorld K) (i : Nat) (s : MStats K) (ms : List (PMatch K)) : Res (CorrWorld K) := do
  let o ← readAt w.objs i
  let heap ← writeAt w.heap o.st s
  let objs ← writeAt w.objs i { o with ms := ms }
  pure ⟨heap, objs⟩

/-- `VGPointCorrespondence2D::clear`, `include/virg/nexus/vg_point_correspondence_2d.hpp:45`. -/
def clearCorr (w : CorrWorld K) (i : Nat) : Res (CorrWorld K) :=
  withBoth w i statsReset []

/-- `VGPointCorrespondence2D::denormalize`, `src/vg_point_correspondence_2d.cc:63-69`. -/
def denormalizeCorr (w : CorrWorld K) (i : Nat) : Res (CorrWorld K) := do
  let o ← readAt w.objs i
  let s ← readAt w.heap o.st
  let ms ← denormalizeMatches s (o.ms.length : Int) o.ms
  withBoth w i statsReset ms

/-- The outcome of a normalisation stored in the object. -/
def storeNorm (w : CorrWorld K) (i : Nat) : Option (MStats K × List (PMatch K)) → Res (Option (CorrWorld K))
  | none => .ok none
  | some r => do
    let w ← withBoth w i r.1 r.2
    pure (some w)

/-- `VGPointCorrespondence2D::normalize`, `src/vg_point_correspondence_2d.cc:56-61`. -/
def normalizeCorr [DecidableEq K] (sqrt : K → K) (w : CorrWorld K) (i : Nat) : Res (Option (CorrWorld K)) := do
  let o ← readAt w.objs i
  let r ← normalizeMatches sqrt (o.ms.length : Int) o.ms
  storeNorm w i r

/-- One operation; `sorter` is the call of `std::sort` in `VGPointCorrespondence2D::sort_by_match_cost`,
`src/vg_point_correspondence_2d.cc:71-77`. -/
def corrStep [DecidableEq K] (sqrt : K → K) (sorter : List (PMatch K) → List (PMatch K)) (w : CorrWorld K) :
    CorrOp K → Res (Option (CorrWorld K))
  | .new => .ok (some (newCorr w))
  | .clone i => some <$> cloneCorr w i
  | .copy i => some <$> copyCorr w i
  | .add i m => some <$> withMatches w i fun ms => .ok (addMatch ms m).1
  | .mark i k b => some <$> withMatches w i fun ms => setInlier ms k b
  | .sort i => some <$> withMatches w i fun ms => .ok (sorter ms)
  | .clear i => some <$> clearCorr w i
  | .normalize i => normalizeCorr sqrt w i
  | .denormalize i => some <$> denormalizeCorr w i

/-- A program: its operations one after the other. -/
def corrRun [DecidableEq K] (sqrt : K → K) (sorter : List (PMatch K) → List (PMatch K)) :
    List (CorrOp K) → CorrWorld K → Res (Option (CorrWorld K))
  | [], w => .ok (some w)
  | op :: ops, w =>
    match corrStep sqrt sorter w op with
    | .ok (some w') => corrRun sqrt sorter ops w'
    | r => r

end

end Nx
