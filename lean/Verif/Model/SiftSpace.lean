import Verif.Model.SiftDog
import Verif.Model.ImageFilter
import Verif.Model.ImageArith

/-!
# Model of the scale space of the SIFT detector

`src/nx_sift_detector.c`. Images hold exact numbers; the widths of the filters are of a type `K` of their own with its square root, and `kern` gives for
the width of a filter the truncated value `2 * kernel_truncation_factor * sigma + 1` and the Gaussian function. What happens with one difference of
two levels (`nx_sift_process_dog`, C87 to C89) is a parameter.
-/

namespace Nx

/-- `struct NXSIFTDetector`, `src/nx_sift_detector.c:85-94`, without the parameters. -/
structure SiftDet where
  gx : GImage Rat
  gy : GImage Rat
  levels : List (GImage Rat)
  dogs : List (GImage Rat)

/-- An image of `nx_image_alloc`. -/
def emptyImage : GImage Rat := ⟨0, 0, 0, []⟩

/-- `nx_sift_detector_new`, `src/nx_sift_detector.c:96-115`. -/
def siftNew (n : Nat) : SiftDet := ⟨emptyImage, emptyImage, List.replicate (n + 3) emptyImage, List.replicate (n + 2) emptyImage⟩

/-- The average of two samples, `src/nx_image.c:780`. -/
def avg2Q (a b : Rat) : Rat := (a + b) / 2

/-- The average of four samples, `src/nx_image.c:782-783`. -/
def avg4Q (a b c d : Rat) : Rat := (a + b + c + d) / 4

section
variable {K : Type} [Mul K] [Sub K] (sqrt : K → K) (kern : K → Int × (Nat → Rat)) (junk junkB : Nat → Rat)

/-- `kernel_sigma`, `src/nx_sift_detector.c:137-142`. -/
def kernelSigma (current desired : K) : K := sqrt (desired * desired - current * current)

/-- `nx_image_smooth` of an image in place with the same width in both directions and no buffer. -/
def smoothIn (img : GImage Rat) (g : K) : Res (GImage Rat) := do
  let r ← smooth id .ok junk junkB none img (kern g).1 (kern g).1 (kern g).2 (kern g).2 none
  pure r.2

/-- One level, `src/nx_sift_detector.c:579-586`; copying makes the target equal to the source. -/
def levelBody (mult : K) (i : Nat) (s : List (GImage Rat) × K) : Res (List (GImage Rat) × K) := do
  let src ← readAt s.1 (i - 1)
  let ls ← writeAt s.1 i src
  let cur ← readAt ls i
  let out ← smoothIn kern junk junkB cur (kernelSigma sqrt s.2 (mult * s.2))
  let ls ← writeAt ls i out
  pure (ls, s.2 * mult)

/-- One difference of levels, `src/nx_sift_detector.c:588-591`. -/
def dogBody (levels : List (GImage Rat)) (i : Nat) (dogs : List (GImage Rat)) : Res (List (GImage Rat)) := do
  let dest ← readAt dogs i
  let a ← readAt levels i
  let b ← readAt levels (i + 1)
  let d ← gSubtract id junk dest a b
  writeAt dogs i d

/-- `nx_sift_detector_prepare_octave`, `src/nx_sift_detector.c:574-592`; `mult` is `pow(2.0, 1.0 / n_scales)`. Without scales it is
infinite, and the size of the kernel is converted to `int`. -/
def prepareOctave (n : Nat) (mult : K) (det : SiftDet) (sigma : K) : Res SiftDet :=
  if n = 0 then .ub
  else do
    let s ← forLoop (n + 3) (levelBody sqrt kern junk junkB mult) 1 (det.levels, sigma)
    let dogs ← forLoop (n + 2) (dogBody junk s.1) 0 det.dogs
    pure { det with levels := s.1, dogs := dogs }

variable {S : Type} (dog : Int → K → Nat → GImage Rat → GImage Rat → Dogs Rat → S → Res S)

/-- One scale, `src/nx_sift_detector.c:567-571`, with the images that `nx_sift_process_dog` selects, `:515-517`. -/
def scaleBody (octave : Int) (sigma : K) (i : Nat) (s : SiftDet × S) : Res (SiftDet × S) := do
  let l ← readAt s.1.levels (i - 1)
  let gx ← derivX id 1 junk s.1.gx l
  let gy ← derivY id 1 junk s.1.gy l
  let c ← readAt s.1.dogs i
  let m ← readAt s.1.dogs (i - 1)
  let p ← readAt s.1.dogs (i + 1)
  let st ← dog octave sigma i gx gy ⟨m, c, p⟩ s.2
  pure ({ s.1 with gx := gx, gy := gy }, st)

/-- `nx_sift_detector_process_octave`, `src/nx_sift_detector.c:561-572`. -/
def processOctave (n : Nat) (det : SiftDet) (st : S) (octave : Int) (sigma : K) : Res (SiftDet × S) :=
  forLoop (n + 1) (scaleBody junk dog octave sigma) 1 (det, st)

/-- The loop over the octaves, `src/nx_sift_detector.c:643-650`, for at most `fuel` octaves; `limit` is `MIN_DIM`. -/
def octaveLoop (n : Nat) (mult : K) (limit : Nat) (sigma : K) : Nat → Int → SiftDet × S → Res (SiftDet × S)
  | 0, _, _ => .ub
  | fuel + 1, octave, s => do
    let l0 ← readAt s.1.levels 0
    if limit < l0.width ∧ limit < l0.height then do
      let det ← prepareOctave sqrt kern junk junkB n mult s.1 sigma
      let (det, st) ← processOctave junk dog n det s.2 octave sigma
      let l0 ← readAt det.levels 0
      let src ← readAt det.levels n
      let l ← gDownsample junk l0 src
      let ls ← writeAt det.levels 0 l
      octaveLoop n mult limit sigma fuel (octave + 1) ({ det with levels := ls }, st)
    else .ok s

end

section
variable {K : Type} [Field K] [LinearOrder K] (sqrt : K → K) (kern : K → Int × (Nat → Rat)) (junk junkB : Nat → Rat)
variable {S : Type} (dog : Int → K → Nat → GImage Rat → GImage Rat → Dogs Rat → S → Res S)

/-- Doubling, `src/nx_sift_detector.c:612-618`: image, width and number of the octave. -/
def startImage (double : Bool) (img : GImage Rat) : Res (GImage Rat × K × Int) :=
  if double then do
    let d ← gUpsample junk avg2Q avg4Q emptyImage img
    pure (d, 1 / 2 * 2, 0 - 1)
  else pure (img, 1 / 2, 0)

/-- The first smoothing, `src/nx_sift_detector.c:629-635`. -/
def startSmooth (sigma0 : K) (l : GImage Rat) (sigma : K) : Res (GImage Rat × K) :=
  if sigma0 > sigma then do
    let l ← smoothIn kern junk junkB l (kernelSigma sqrt sigma sigma0)
    pure (l, sigma0)
  else pure (l, sigma)

/-- `nx_sift_detector_compute`, `src/nx_sift_detector.c:594-656`, for images of floating point numbers, which `nx_image_convert_dtype` copies; the store
for keypoints is part of the state of `dog`. -/
def siftCompute (n : Nat) (mult : K) (limit : Nat) (sigma0 : K) (double : Bool) (fuel : Nat) (det : SiftDet) (img : GImage Rat) (st : S) :
    Res (SiftDet × S) := do
  let (img, sigma, octave) ← startImage (K := K) junk double img
  let l ← readAt det.levels 0
  let _ ← gResize junk l img.width img.height 0
  let (l, sigma) ← startSmooth sqrt kern junk junkB sigma0 img sigma
  let ls ← writeAt det.levels 0 l
  octaveLoop sqrt kern junk junkB dog n mult limit sigma fuel octave ({ det with levels := ls }, st)

end

end Nx
