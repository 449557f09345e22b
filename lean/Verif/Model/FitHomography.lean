import Verif.Model.UsacHomography
import Verif.Model.MatchStats
import Verif.Model.MatIO
import Verif.Model.DataFrameMem

/-!
# Model of the tool `nx_fit_homography`, `tools/nx_fit_homography_main.c`

Exact arithmetic as in `Model/Homography.lean`, random numbers and sorting as in `Model/Ransac.lean`, text as in
`Model/MatIO.lean`. What is printed, the run times and their statistics are left out. In the model of the memory every object
is one block: that the options, the images and the keypoints free what belongs to them is the subject of C110, C80 and C89.
-/

namespace Nx

section
variable {K : Type} [Field K] [LinearOrder K]

/-- The array `h` after `nx_usac_estimate_homography`, read by `nx_point_match_2d_stats_denormalize_homography`,
`tools/nx_fit_homography_main.c:289-293`. `nx_usac_estimate_homography` returns before it writes the array if there are less than
four matches (`src/nx_usac_homography.c:194-195`), and nothing else has written it: the elements are indeterminate. -/
def readEstimated (n : Int) (h : M3 K) : Res (M3 K) := if n < 4 then .ub else .ok h

/-- `fit_ransac`, `tools/nx_fit_homography_main.c:278-303`. -/
def fitRansac (sqrt : K → K) (svd : List (Fin 9 → K) → (Fin 9 → Fin 9 → K) × List K) (qsort : List (PMatch K) → List (PMatch K))
    (maxAbsCos : K) (undef : Option Int) (n : Int) (corr : List (PMatch K)) (tol : K) (maxIter : Int) (rnd : List (BitVec 32)) :
    Res (Run (ROut K)) :=
  (normalizeMatches sqrt n corr).bind fun
    | none => (readEstimated n (zeroModel : M3 K)).bind fun _ => .ok .nan
    | some (st, corr) =>
      (usacHomography svd qsort maxAbsCos undef zeroModel n corr (tol / st.dp) maxIter rnd).bind fun
        | .done o =>
          (readEstimated n o.h).bind fun h =>
            (denormalizeMatches st n o.corr).bind fun c => .ok (.done ⟨denormalizeHomography st h, c, o.count, o.hyps⟩)
        | .starved => .ok .starved
        | .nan => .ok .nan

/-- The loop of `ransac_benchmark`, `tools/nx_fit_homography_main.c:196-203`: the homographies with the numbers of inliers, and
the matches afterwards. For every step the random numbers of the step are given. -/
def benchSteps (svd : List (Fin 9 → K) → (Fin 9 → Fin 9 → K) × List K) (qsort : List (PMatch K) → List (PMatch K))
    (maxAbsCos : K) (undef : Option Int) (n : Int) (tol : K) (maxIter : Int) :
    List (List (BitVec 32)) → List (PMatch K) → Res (Run (List (M3 K × Nat) × List (PMatch K)))
  | [], corr => .ok (.done ([], corr))
  | rnd :: rnds, corr =>
    (usacHomography svd qsort maxAbsCos undef zeroModel n corr tol maxIter rnd).bind fun
      | .done o =>
        (benchSteps svd qsort maxAbsCos undef n tol maxIter rnds o.corr).bind fun
          | .done r => .ok (.done ((o.h, o.count) :: r.1, r.2))
          | .starved => .ok .starved
          | .nan => .ok .nan
      | .starved => .ok .starved
      | .nan => .ok .nan

/-- The loop over the homographies, `tools/nx_fit_homography_main.c:206-208`. -/
def benchDenorm (st : MStats K) (n : Int) : List (M3 K × Nat) → Res (List (M3 K × Nat))
  | [] => .ok []
  | (h, k) :: l => do
    let h ← readEstimated n h
    let r ← benchDenorm st n l
    pure ((denormalizeHomography st h, k) :: r)

/-- The estimations of `ransac_benchmark`, `tools/nx_fit_homography_main.c:182-208`. -/
def ransacBenchmark (sqrt : K → K) (svd : List (Fin 9 → K) → (Fin 9 → Fin 9 → K) × List K)
    (qsort : List (PMatch K) → List (PMatch K)) (maxAbsCos : K) (undef : Option Int) (n : Int) (corr : List (PMatch K)) (tol : K)
    (maxIter : Int) (rnds : List (List (BitVec 32))) : Res (Run (List (M3 K × Nat) × List (PMatch K))) :=
  (normalizeMatches sqrt n corr).bind fun
    | none =>
      match rnds with
      | [] => .ok .nan
      | _ :: _ => (readEstimated n (zeroModel : M3 K)).bind fun _ => .ok .nan
    | some (st, corr) =>
      (benchSteps svd qsort maxAbsCos undef n (tol / st.dp) maxIter rnds corr).bind fun
        | .done r =>
          (denormalizeMatches st n r.2).bind fun c => (benchDenorm st n r.1).bind fun hs => .ok (.done (hs, c))
        | .starved => .ok .starved
        | .nan => .ok .nan

/-- The body of the loop of `load_validation_points`, `tools/nx_fit_homography_main.c:417-426`; `tenth` is `0.1`. -/
def validationPoint (pts : List K) (tenth : K) (i : Nat) : Res (PMatch K) := do
  let x0 ← readAt pts (i * 6 + 0)
  let x1 ← readAt pts (i * 6 + 1)
  let xp0 ← readAt pts (i * 6 + 3)
  let xp1 ← readAt pts (i * 6 + 4)
  pure ⟨(x0, x1), (xp0, xp1), 0, tenth, tenth, 0, 0, true⟩

/-- `load_validation_points`, `tools/nx_fit_homography_main.c:383-434`, for the text of the file, or `none` if the option is not
given. -/
def loadValidation (junk : Nat → K) (junkB : Nat → Byte) (scan : Bytes → Option (K × Nat)) (tenth : K) (file : Option Bytes) :
    Res (Option (List (PMatch K))) :=
  match file with
  | none => .ok none
  | some text => do
    match ← dmatXread junk junkB scan text with
    | none => .fatal
    | some (pts, m, n) =>
      if m ≠ 6 then .fatal
      else do
        let corr ← forLoop n (fun i acc => do
          let c ← validationPoint pts tenth i
          pure (acc ++ [c])) 0 []
        pure (some corr)

/-- Nine elements of an array as a matrix. -/
def matOfArray (A : List K) : Res (M3 K) := do
  let e0 ← readAt A 0
  let e1 ← readAt A 1
  let e2 ← readAt A 2
  let e3 ← readAt A 3
  let e4 ← readAt A 4
  let e5 ← readAt A 5
  let e6 ← readAt A 6
  let e7 ← readAt A 7
  let e8 ← readAt A 8
  pure ⟨e0, e1, e2, e3, e4, e5, e6, e7, e8⟩

/-- `load_ground_truth_from_options`, `tools/nx_fit_homography_main.c:436-456`. -/
def loadGroundTruth (junk : Nat → K) (junkB : Nat → Byte) (scan : Bytes → Option (K × Nat)) (file : Option Bytes) :
    Res (Option (M3 K)) :=
  match file with
  | none => .ok none
  | some text => do
    match ← dmatXread junk junkB scan text with
    | none => .fatal
    | some (A, m, n) =>
      if m ≠ 3 ∨ n ≠ 3 then .fatal
      else do
        let h ← matOfArray A
        pure (some h)

end

/-- A number of blocks, one for each step of the benchmark, `tools/nx_fit_homography_main.c:190-193`. -/
def fitAllocs : Nat → Mem → Mem × List Nat
  | 0, σ => (σ, [])
  | n + 1, σ =>
    let r := fitAllocs n (memAlloc σ).1
    (r.1, (memAlloc σ).2 :: r.2)

/-- Frees blocks one after the other, `tools/nx_fit_homography_main.c:272-274`. -/
def fitFrees : List Nat → Mem → Res Mem
  | [], σ => .ok σ
  | p :: l, σ => do
    let σ ← memFree σ (some p)
    fitFrees l σ

/-- The memory of `ransac_benchmark`, `tools/nx_fit_homography_main.c:158-276`, with `steps` steps. -/
def benchMem (steps : Nat) (σ : Mem) : Res Mem := do
  let (σ, stats) := memAlloc σ
  let (σ, nInliers) := memAlloc σ
  let (σ, eFwd) := memAlloc σ
  let (σ, runtime) := memAlloc σ
  let (σ, h) := memAlloc σ
  let (σ, hs) := fitAllocs steps σ
  let σ ← memFree σ (some stats)
  let σ ← memFree σ (some nInliers)
  let σ ← memFree σ (some eFwd)
  let σ ← memFree σ (some runtime)
  let σ ← fitFrees hs σ
  memFree σ (some h)

/-- The memory of `fit_ransac`, `tools/nx_fit_homography_main.c:278-303`. -/
def fitRansacMem (σ : Mem) : Res Mem := do
  let (σ, stats) := memAlloc σ
  memFree σ (some stats)

/-- The keypoints of one image, `tools/nx_fit_homography_main.c:363-372`; `grow` says whether `nx_sift_detector_compute` needs
more room and reallocates the two arrays. -/
def storeMem (grow : Bool) (σ : Mem) : Res (Mem × Nat × Nat) := do
  let (σ, keys) := memAlloc σ
  let (σ, desc) := memAlloc σ
  if grow then do
    let (σ, keys) ← memRealloc σ (some keys)
    let (σ, desc) ← memRealloc σ (some desc)
    pure (σ, keys, desc)
  else pure (σ, keys, desc)

/-- The memory of `load_validation_points`, `tools/nx_fit_homography_main.c:383-434`; the stream counts as a block. -/
def validationMem (given : Bool) (σ : Mem) : Res (Mem × Option Nat) :=
  if given then do
    let (σ, stream) := memAlloc σ
    let (σ, pts) := memAlloc σ
    let σ ← memFree σ (some stream)
    let (σ, corr) := memAlloc σ
    let σ ← memFree σ (some pts)
    pure (σ, some corr)
  else pure (σ, none)

/-- The memory of `load_ground_truth_from_options`, `tools/nx_fit_homography_main.c:436-456`. The stream is not closed. -/
def groundTruthMem (given : Bool) (σ : Mem) : Mem × Option Nat :=
  if given then
    let (σ, _stream) := memAlloc σ
    let (σ, h) := memAlloc σ
    (σ, some h)
  else (σ, none)

/-- Which files are given, whether the keypoints need more room, and the number of steps of the benchmark if it is run. -/
structure FitRun where
  grow0 : Bool
  grow1 : Bool
  validation : Bool
  l2r : Bool
  r2l : Bool
  bench : Option Nat

/-- The benchmark or the fit, `tools/nx_fit_homography_main.c:121-139`. -/
def fitOrBench (bench : Option Nat) (σ : Mem) : Res Mem :=
  match bench with
  | some k => benchMem k σ
  | none => fitRansacMem σ

/-- The memory of `main`, `tools/nx_fit_homography_main.c:74-156`, `load_images` `:325-349` and
`compute_keypoints_and_descriptors` `:351-381`. -/
def fitMain (r : FitRun) (σ : Mem) : Res Mem := do
  let (σ, opt) := memAlloc σ
  let (σ, imgs) := memAlloc σ
  let (σ, img0) := memAlloc σ
  let (σ, img1) := memAlloc σ
  let (σ, _detector) := memAlloc σ
  let (σ, stores) := memAlloc σ
  let (σ, keys0, desc0) ← storeMem r.grow0 σ
  let (σ, keys1, desc1) ← storeMem r.grow1 σ
  let (σ, corr) := memAlloc σ
  let (σ, vpts) ← validationMem r.validation σ
  let (σ, l2r) := groundTruthMem r.l2r σ
  let (σ, r2l) := groundTruthMem r.r2l σ
  let σ ← fitOrBench r.bench σ
  let σ ← memFree σ l2r
  let σ ← memFree σ r2l
  let σ ← memFree σ vpts
  let σ ← memFree σ (some corr)
  let σ ← memFree σ (some keys0)
  let σ ← memFree σ (some desc0)
  let σ ← memFree σ (some keys1)
  let σ ← memFree σ (some desc1)
  let σ ← memFree σ (some stores)
  let σ ← memFree σ (some img0)
  let σ ← memFree σ (some img1)
  let σ ← memFree σ (some imgs)
  memFree σ (some opt)

end Nx
