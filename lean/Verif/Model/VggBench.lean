import Mathlib.Algebra.Field.Rat
import Mathlib.Algebra.Order.Ring.Rat
import Verif.Model.ImageIo
import Verif.Model.SiftMatch

/-!
# Model of the benchmark of the SIFT detector, `tools/nx_sift_benchmark_main.c`

The detector (`nx_sift_detector_compute`, C106) is a parameter: a function from images to the returned number of keypoints and the arrays
of keypoints and descriptors. `rd` rounds to `float`; the matrices and the tolerances are exact. Files are as in `Model/ImageIo.lean`. The
lines are records; the times that are printed and all messages are left out. An allocation of no bytes is not `NULL`.
-/

namespace Nx

/-- A line of the report, `tools/nx_sift_benchmark_main.c:159-164`, without the times. -/
structure VbRow where
  name : Bytes
  pair : Nat
  nKeys0 : Nat
  nKeysi : Nat
  nPm : Nat
  in0 : Nat
  in1 : Nat
  in2 : Nat
deriving DecidableEq, Repr

/-- `INLIER_TOL`, `tools/nx_sift_benchmark_main.c:48`. -/
def vbTols : List Rat := [3, 2, 1]

/-- The nine numbers of a matrix as they are read by `nx_homography_mark_inliers`. -/
def m3OfNums : List Rat → Res (M3 Rat)
  | e0 :: e1 :: e2 :: e3 :: e4 :: e5 :: e6 :: e7 :: e8 :: _ => .ok ⟨e0, e1, e2, e3, e4, e5, e6, e7, e8⟩
  | _ => .ub

/-- The content of fresh memory as an array of matches. -/
def freshMatch : PMatch Rat := ⟨(0, 0), (0, 0), 0, 0, 0, 0, 0, false⟩

/-- One round of the loop over the tolerances, `tools/nx_sift_benchmark_main.c:151-155`; the state is the array of matches and the array
`n_inliers`. -/
def vbCount (h : M3 Rat) (nPm : Nat) (i : Nat) (s : List (PMatch Rat) × List Nat) : Res (List (PMatch Rat) × List Nat) := do
  let tol ← readAt vbTols i
  let r ← markInliers h nPm s.1 tol
  let l ← writeAt s.2 i r.2
  pure (r.1, l)

section
variable (rd : Rat → Rat) (detect : UImg → Res (Nat × List NumKey × List Byte)) (C : Codecs) (junk : Nat → Byte) (files : Files)

/-- `evaluate_vgg_pair`, `tools/nx_sift_benchmark_main.c:111-170`. -/
def vbPair (thr : Rat) (q : VggSeq Rat) (k0 : Nat × List NumKey × List Byte) (pair : Nat) : Res VbRow := do
  let img ← vggLoadFrame C junk files q pair .gray
  let ki ← detect img
  let (nPm, pm) ← siftMatch rd k0.1 k0.2.1 k0.2.2 ki.1 ki.2.1 ki.2.2 (List.replicate k0.1 freshMatch) thr
  let h ← readAt q.h pair
  let H ← m3OfNums h
  let (_, l) ← forLoop 3 (vbCount H nPm) 0 (pm, [0, 0, 0])
  let a ← readAt l 0
  let b ← readAt l 1
  let c ← readAt l 2
  pure ⟨q.name, pair, k0.1, ki.1, nPm, a, b, c⟩

/-- One round of the loop of `run_vgg_benchmark`, `tools/nx_sift_benchmark_main.c:178-204`; the state is the lines that were printed. -/
def vbSeq (scan : Bytes → Option (Rat × Bytes)) (fresh : Rat) (dirs : Bytes → Bool) (base : Bytes) (thr : Rat) (sid : Nat)
    (rows : List VbRow) : Res (List VbRow) := do
  let name ← readAt vggNames sid
  let q ← vggNew scan fresh 0 1 files dirs base (bytesOf name)
  let img0 ← vggLoadFrame C junk files q 0 .gray
  let k0 ← detect img0
  forLoop q.length (fun i rows => do
    let r ← vbPair rd detect C junk files thr q k0 i
    pure (rows ++ [r])) 1 rows

/-- `run_vgg_benchmark`, `tools/nx_sift_benchmark_main.c:172-205`; `NX_VGG_AFFINE_N_SEQ` is 8. The threshold is `double` in the options
and `float` afterwards, `tools/nx_sift_benchmark_main.c:105`. -/
def vbRun (scan : Bytes → Option (Rat × Bytes)) (fresh : Rat) (dirs : Bytes → Bool) (base : Bytes) (thr : Rat) : Res (List VbRow) :=
  forLoop 8 (vbSeq rd detect C junk files scan fresh dirs base (rd thr)) 0 []

end

end Nx
