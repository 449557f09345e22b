import Mathlib.Algebra.Field.Rat
import Verif.Model.DescMap
import Verif.Model.SiftMatch

/-!
# Model of the matching of two views, `tools/vg_stereo_matcher_main.cc`, `src/vg_brief_extractor.cc`

The extractor of descriptors is a parameter: for a keypoint it gives the octets, or nothing if the keypoint is too close to the border
(`Model/Brief.lean`). `rd` rounds to `float`, computations with `double` are exact and `sqrt` is a parameter. The messages and the
images that are saved with them are left out.
-/

namespace Nx

/-- Body of the loop of `VGBriefExtractor::compute_pyr`, `src/vg_brief_extractor.cc:68-73`. -/
def extractBody (ext : NumKey → Res (Option Bytes)) (keys : List NumKey) (i : Nat) (m : DescMap) : Res DescMap := do
  let k ← readAt keys i
  let d ← ext k
  match d with
  | none => pure m
  | some d => do
    let r ← dmAdd m (UInt64.ofNat k.id) d
    pure r.2

/-- The end of `build_frame`, `tools/vg_stereo_matcher_main.cc:116-119`: the map of descriptors. The assertion on the number
of octets holds, as the map is given the number of the extractor. -/
def extractFrame (ext : NumKey → Res (Option Bytes)) (octets : Nat) (keys : List NumKey) (m : DescMap) : Res DescMap :=
  forLoop keys.length (extractBody ext keys) 0 (dmSetOctets m octets)

/-- `KEY_SIGMA0`, `tools/vg_stereo_matcher_main.cc:71`. -/
def keySigma0 : Rat := 1 / 2

/-- Body of the loop of `match_frames`, `tools/vg_stereo_matcher_main.cc:126-139`; the state is `hcorr`. An index of a vector that is
out of its range is undefined behaviour, although only the address is computed. -/
def stereoMatchBody (rd : Rat → Rat) (lk rk : List NumKey) (lm rm : DescMap) (i : Nat) (acc : List (PMatch Rat)) :
    Res (List (PMatch Rat)) := do
  let p ← dmGetDescriptor lm i
  let d ← dmRead lm p
  let idL ← dmGetId lm i
  let k ← readAt lk idL.toNat
  let r ← dmSearchNN rm d
  let kp ← readAt rk r.1.toNat
  if rd r.2 < 70 then pure (acc ++ [matchFromKeys rd k kp keySigma0 (rd r.2) false]) else pure acc

/-- `match_frames`, `tools/vg_stereo_matcher_main.cc:122-141`: `hcorr`, of which `fcorr` is a copy. -/
def stereoMatch (rd : Rat → Rat) (lk rk : List NumKey) (lm rm : DescMap) : Res (List (PMatch Rat)) := do
  let n ← dmSize lm
  forLoop n (stereoMatchBody rd lk rk lm rm) 0 []

/-- Body of the loop of `search_keypoint_around`, `tools/vg_stereo_matcher_main.cc:188-197`; the state is `id` and `d_best`. The point is
`none` if its coordinates are not numbers, and then no comparison holds. -/
def searchBody (rd sqrt : Rat → Rat) (x : Option (Rat × Rat)) (keys : List NumKey) (i : Nat) (s : Int × Rat) : Res (Int × Rat) := do
  let k ← readAt keys i
  match x with
  | none => pure s
  | some x =>
    let dx := rd (k.xs * k.scale) - x.1
    let dy := rd (k.ys * k.scale) - x.2
    let d := sqrt (dx * dx + dy * dy)
    if d < s.2 then pure ((i : Int), d) else pure s

/-- `search_keypoint_around`, `tools/vg_stereo_matcher_main.cc:184-201`. -/
def searchAround (rd sqrt : Rat → Rat) (x : Option (Rat × Rat)) (keys : List NumKey) : Res Int := do
  let s ← forLoop keys.length (searchBody rd sqrt x keys) 0 (-1, 3)
  pure s.1

/-- Body of the loop of `match_frames_guided_by_homography`, `tools/vg_stereo_matcher_main.cc:207-219`; the state is `hcorr`. -/
def guidedBody (rd sqrt : Rat → Rat) (h : M3 Rat) (lk rk : List NumKey) (i : Nat) (acc : List (PMatch Rat)) : Res (List (PMatch Rat)) := do
  let k ← readAt lk i
  let id ← searchAround rd sqrt (transferFwd h (rd (k.xs * k.scale), rd (k.ys * k.scale))).1 rk
  if id ≥ 0 then do
    let kp ← readI rk id
    pure (acc ++ [matchFromKeys rd k kp keySigma0 0 true])
  else pure acc

/-- `match_frames_guided_by_homography`, `tools/vg_stereo_matcher_main.cc:203-219`: `hcorr` afterwards. It is not cleared before. -/
def guidedMatch (rd sqrt : Rat → Rat) (h : M3 Rat) (lk rk : List NumKey) (corr : List (PMatch Rat)) : Res (List (PMatch Rat)) :=
  forLoop lk.length (guidedBody rd sqrt h lk rk) 0 corr

end Nx
