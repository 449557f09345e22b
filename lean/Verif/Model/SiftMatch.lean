import Verif.Model.Harris
import Verif.Model.Homography

/-!
# Model of the matching of SIFT descriptors, `src/nx_sift_detector.c`

`rd` rounds the exact result of an operation, or an `int`, to `float`; the theorems are
about every monotone `rd` that keeps the integers of at most 24 bits. Keypoints are read
only, so that a keypoint is taken from its list at the place where the code computes its
address and uses it. The arrays of descriptors are lists of bytes.
-/

namespace Nx

/-- Body of the loop of `nx_ucvec_dist_sq`, `include/virg/nexus/nx_vec.h:203-206`. The sum is an `int`. -/
def distSqBody (v0 : List Byte) (o0 : Nat) (v1 : List Byte) (o1 : Nat) (i : Nat) (dSq : Int) : Res Int := do
  let a ← readAt v0 (o0 + i)
  let b ← readAt v1 (o1 + i)
  let d : Int := (a.toNat : Int) - b.toNat
  if dSq + d * d ≤ 2147483647 then .ok (dSq + d * d) else .ub

/-- `nx_ucvec_dist_sq`, `include/virg/nexus/nx_vec.h:196-209`, of the vectors that start at `o0` and `o1`. -/
def ucDistSq (n : Nat) (v0 : List Byte) (o0 : Nat) (v1 : List Byte) (o1 : Nat) : Res Int :=
  forLoop n (distSqBody v0 o0 v1 o1) 0 0

/-- `NX_SIFT_DESC_DIM`, `include/virg/nexus/nx_sift_detector.h:48`. -/
def siftDim : Nat := 128

/-- `desc + i*NX_SIFT_DESC_DIM`, `src/nx_sift_detector.c:760,763,798,801`; the product is an `int`. -/
def descOffset (i : Nat) : Res Nat := if i * siftDim ≤ 2147483647 then .ok (i * siftDim) else .ub

/-- `nx_point_match_2d_from_keypoints`, `include/virg/nexus/nx_point_match_2d.h:44-64`. -/
def matchFromKeys (rd : Rat → Rat) (k kp : NumKey) (sigma0 cost : Rat) (inlier : Bool) : PMatch Rat where
  x := (rd (k.xs * k.scale), rd (k.ys * k.scale))
  xp := (rd (kp.xs * kp.scale), rd (kp.ys * kp.scale))
  cost := cost
  sigmaX := rd (sigma0 * k.scale)
  sigmaXp := rd (sigma0 * kp.scale)
  id := BitVec.ofNat 64 k.id
  idp := BitVec.ofNat 64 kp.id
  inlier := inlier

/-- `SIFT_LOCALIZATION_STD_DEV`, `src/nx_sift_detector.c:747`: the `float` next to 0.3. -/
def siftStdDev : Rat := 10066330 / 33554432

/-- The variables `nn_ids` and `nn_dist_sq`, `src/nx_sift_detector.c:756-757`. -/
structure TwoNearest where
  id0 : Int
  id1 : Int
  d0 : Int
  d1 : Int
deriving DecidableEq, Repr

/-- Body of the inner loop of the matching with a check of the ratio, `src/nx_sift_detector.c:762-776`. -/
def twoNearestBody (desc : List Byte) (oi : Nat) (descp : List Byte) (j : Nat) (s : TwoNearest) : Res TwoNearest := do
  let oj ← descOffset j
  let d ← ucDistSq siftDim desc oi descp oj
  if d < s.d0 then pure ⟨j, s.id0, d, s.d0⟩
  else if d < s.d1 then pure { s with d1 := d, id1 := j }
  else pure s

/-- Body of the outer loop of the matching with a check of the ratio, `src/nx_sift_detector.c:755-788`;
the state is `n_matches` and the array `corr`. -/
def ratioBody (rd : Rat → Rat) (keys : List NumKey) (desc : List Byte) (np : Nat) (keyps : List NumKey) (descp : List Byte)
    (thrSq : Rat) (i : Nat) (s : Nat × List (PMatch Rat)) : Res (Nat × List (PMatch Rat)) := do
  let oi ← descOffset i
  let t ← forLoop np (twoNearestBody desc oi descp) 0 ⟨-1, -1, 2147483647, 2147483647⟩
  if rd t.d0 < rd (thrSq * rd t.d1) then
    let k ← readAt keys i
    let kp ← readI keyps t.id0
    let corr ← writeAt s.2 s.1 (matchFromKeys rd k kp siftStdDev (rd t.d0) false)
    pure (s.1 + 1, corr)
  else pure s

/-- Body of the inner loop of the matching without a check, `src/nx_sift_detector.c:800-809`; the state is
`nn_id` and `nn_dist_sq`. -/
def nearestBody (desc : List Byte) (oi : Nat) (descp : List Byte) (j : Nat) (s : Int × Int) : Res (Int × Int) := do
  let oj ← descOffset j
  let d ← ucDistSq siftDim desc oi descp oj
  if d < s.2 then pure (j, d) else pure s

/-- Body of the outer loop of the matching without a check, `src/nx_sift_detector.c:793-816`. -/
def plainBody (rd : Rat → Rat) (keys : List NumKey) (desc : List Byte) (np : Nat) (keyps : List NumKey) (descp : List Byte)
    (i : Nat) (corr : List (PMatch Rat)) : Res (List (PMatch Rat)) := do
  let oi ← descOffset i
  let t ← forLoop np (nearestBody desc oi descp) 0 (-1, 2147483647)
  let k ← readAt keys i
  let kp ← readI keyps t.1
  writeAt corr i (matchFromKeys rd k kp siftStdDev (rd t.2) false)

/-- `nx_sift_match_brute_force`, `src/nx_sift_detector.c:732-818`: the returned number and the array `corr`. -/
def siftMatch (rd : Rat → Rat) (n : Nat) (keys : List NumKey) (desc : List Byte) (np : Nat) (keyps : List NumKey)
    (descp : List Byte) (corr : List (PMatch Rat)) (thr : Rat) : Res (Nat × List (PMatch Rat)) :=
  if 0 < thr ∧ thr < 1 then
    forLoop n (ratioBody rd keys desc np keyps descp (rd (thr * thr))) 0 (0, corr)
  else do
    let corr ← forLoop n (plainBody rd keys desc np keyps descp) 0 corr
    pure (n, corr)

end Nx
