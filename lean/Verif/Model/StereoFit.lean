import Verif.Model.Correspondence
import Verif.Model.Ransac
import Verif.Model.StereoRefine

/-!
# Model of the estimation of a homography by the stereo matcher, `tools/vg_stereo_matcher_main.cc:155-261` and `:459-505`

The matches of the two views (`match_frames`, C104) are given, and so is the function that finds the matches that are added for a known
homography (`match_frames_guided_by_homography`, C104, which adds marked matches at the end of the list). The messages, the
images that are saved with them and the transfer errors, which are only printed, are left out. Numbers as in `Model/Ransac.lean`.
-/

namespace Nx

section
variable {K : Type} [Field K] [LinearOrder K]

/-- `estimate_initial_homography`, `tools/vg_stereo_matcher_main.cc:155-181`, and `VGHomography::estimate_ransac`,
`include/virg/nexus/vg_homography.hpp:47-54`: the objects, the homography and the number of inliers. -/
def initialHomography (sqrt : K → K) (svd : List (Fin 9 → K) → (Fin 9 → Fin 9 → K) × List K)
    (qsort : List (PMatch K) → List (PMatch K)) (maxAbsCos : K) (h : M3 K) (w : CorrWorld K) (i : Nat) (rnd : List (BitVec 32)) :
    Res (Run (CorrWorld K × M3 K × Nat)) :=
  (normalizeCorr sqrt w i).bind fun
    | none => .ok .nan
    | some w => do
      let o ← readAt w.objs i
      let st ← readAt w.heap o.st
      let r ← homographyRansac svd qsort maxAbsCos h (o.ms.length : Int) o.ms (3 / st.dp) 10000 rnd
      match r with
      | .starved => .ok .starved
      | .nan => .ok .nan
      | .done r => do
        let w ← withMatches w i fun _ => .ok r.corr
        let w ← denormalizeCorr w i
        .ok (.done (w, denormalizeHomography st r.h, r.count))

/-- `estimate_guided_homography`, `tools/vg_stereo_matcher_main.cc:236-261`, and `VGHomography::estimate_from_inliers`,
`include/virg/nexus/vg_homography.hpp:56-62`; nothing is left to do after a division by zero. -/
def guidedHomography (sqrt : K → K) (svd : List (Fin 9 → K) → (Fin 9 → Fin 9 → K) × List K) (h : M3 K) (w : CorrWorld K) (i : Nat) :
    Res (Run (CorrWorld K × M3 K × Nat)) :=
  (normalizeCorr sqrt w i).bind fun
    | none => .ok .nan
    | some w => do
      let o ← readAt w.objs i
      let st ← readAt w.heap o.st
      let e ← estimateDltInliers svd h (o.ms.length : Int) o.ms
      let r ← markInliers e.1 (o.ms.length : Int) o.ms (3 / st.dp)
      let w ← withMatches w i fun _ => .ok r.1
      let w ← denormalizeCorr w i
      .ok (.done (w, denormalizeHomography st e.1, r.2))

/-- `VGHomography()`, `src/vg_homography.cc:31-33`. -/
def idHomography : M3 K := ⟨1, 0, 0, 0, 1, 0, 0, 0, 1⟩

/-- The indeterminate contents of the arrays of `estimate_homography_nonlinear` for a number of inliers. -/
structure Scratch (K : Type) where
  e : Nat → List K
  jt : Nat → List K
  jte : List K
  A : List K

/-- The end of `main`, `tools/vg_stereo_matcher_main.cc:486-491`, with the matches in `hcorr`, the object `i`: the objects, the homography
and `n_inliers_h`. -/
def stereoFit (sqrt : K → K) (svd : List (Fin 9 → K) → (Fin 9 → Fin 9 → K) × List K)
    (qsort : List (PMatch K) → List (PMatch K)) (maxAbsCos : K) (dsysv : List K → List K → Int × List K)
    (guided : M3 K → List (PMatch K)) (mem : Scratch K) (w : CorrWorld K) (i : Nat) (rnd : List (BitVec 32)) :
    Res (Run (CorrWorld K × M3 K × Nat)) := do
  let r ← initialHomography sqrt svd qsort maxAbsCos idHomography w i rnd
  match r with
  | .starved => .ok .starved
  | .nan => .ok .nan
  | .done r =>
    if r.2.2 ≥ 15 then do
      let w ← withMatches r.1 i fun ms => .ok (ms ++ guided r.2.1)
      let g ← guidedHomography sqrt svd r.2.1 w i
      match g with
      | .starved => .ok .starved
      | .nan => .ok .nan
      | .done g => do
        let o ← readAt g.1.objs i
        let N ← countInliers o.ms.length o.ms 0
        let f ← refineHomography dsysv o.ms.length o.ms g.2.1 (mem.e N) (mem.jt N) mem.jte mem.A
        let w ← withMatches g.1 i fun _ => .ok f.2.1
        .ok (.done (w, f.1, f.2.2))
    else .ok (.done r)

end

end Nx
