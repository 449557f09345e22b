import Mathlib.Analysis.SpecialFunctions.Pow.Real
import Verif.Model.Warp
import Verif.Model.ImageFilter

/-!
# Model of image pyramids: `src/nx_image_pyr.c`, `src/nx_image_pyr_builder.c`

Scales are exact rational numbers and standard deviations are real numbers. The functions for images are parameters, `PyrOps`, so that
the builder can be run on images as well as on what is known about them. `byteOps` are those for 8-bit images. A pyramid is the list
of its levels; it is owned by one builder call at a time.
-/

namespace Nx

/-- The functions for images the builder calls. -/
structure PyrOps (I : Type) where
  /-- `nx_image_alloc` -/
  alloc : I
  size : I → Nat × Nat
  /-- `nx_image_resize(img, w, h, 0, NX_IMAGE_GRAYSCALE, NX_IMAGE_UCHAR)` -/
  create : I → Int → Int → Res I
  /-- `nx_image_copy(dest, src)` -/
  copy : I → I → Res I
  /-- `nx_image_smooth`; `none` if the destination is the source -/
  smooth : Option I → I → ℝ → Res I
  /-- `nx_image_downsample_aa_x(dest, src)` -/
  downX : I → I → Res I
  downY : I → I → Res I
  /-- `nx_image_downsample(dest, src)` -/
  down : I → I → Res I
  /-- `nx_image_scale(dest, src, s)` -/
  scale : I → I → Rat → Res I

/-- `struct NXImagePyrLevel`, `include/virg/nexus/nx_image_pyr.h:35-40`. -/
structure PyrLevel (I : Type) where
  img : I
  scale : Rat
  sigma : ℝ

/-- `enum NXImagePyrBuilderType`, `include/virg/nexus/nx_image_pyr_builder.h:37-42`. -/
inductive PyrKind where
  | none
  | fast
  | fine
  | scaled
deriving DecidableEq

/-- `struct NXImagePyrBuilder` with `struct NXImagePyrInfo`, `include/virg/nexus/nx_image_pyr_builder.h:44-60`. -/
structure PyrBuilder (I : Type) where
  kind : PyrKind
  levels : Nat
  octaves : Nat
  steps : Nat
  factor : Rat
  sigma0 : ℝ
  work : I

/-- `NX_IMAGE_PYR_BUILDER_INITIAL_SIGMA`, `include/virg/nexus/nx_image_pyr_builder.h:35`. -/
noncomputable def initialSigma : ℝ := 1 / 2

section
variable {I : Type} (ops : PyrOps I)

/-- `if (sigma0 < INITIAL_SIGMA) sigma0 = INITIAL_SIGMA;`, e.g. `src/nx_image_pyr_builder.c:100-101`. -/
noncomputable def atLeastInitial (s : ℝ) : ℝ := if s < initialSigma then initialSigma else s

/-- `nx_image_pyr_builder_set_fast`, `src/nx_image_pyr_builder.c:95-110`. -/
noncomputable def setFast (b : PyrBuilder I) (n : Nat) (sigma0 : ℝ) : Res (PyrBuilder I) :=
  if n = 0 then .fatal
  else .ok { b with kind := .fast, levels := n, octaves := n, steps := 1, factor := 2, sigma0 := atLeastInitial sigma0 }

/-- `nx_image_pyr_builder_set_fine`, `src/nx_image_pyr_builder.c:112-128`; the number of levels is a product of `int`. -/
noncomputable def setFine (b : PyrBuilder I) (oct steps : Nat) (sigma0 : ℝ) : Res (PyrBuilder I) :=
  if oct = 0 ∨ steps = 0 then .fatal
  else if oct * steps > 2147483647 then .ub
  else .ok { b with kind := .fine, levels := oct * steps, octaves := oct, steps := steps, factor := 2, sigma0 := atLeastInitial sigma0 }

/-- `nx_image_pyr_builder_set_scaled`, `src/nx_image_pyr_builder.c:130-145`; the number of octaves is not used. -/
noncomputable def setScaled (b : PyrBuilder I) (n : Nat) (factor : Rat) (sigma0 : ℝ) : Res (PyrBuilder I) :=
  if n = 0 then .fatal
  else .ok { b with kind := .scaled, levels := n, octaves := 0, steps := 1, factor := factor, sigma0 := atLeastInitial sigma0 }

/-- `nx_image_pyr_alloc_levels`, `src/nx_image_pyr.c:54-69`; scale and sigma of new levels are not set before
`nx_image_pyr_create_level`. -/
def allocLevels (pyr : List (PyrLevel I)) (n : Nat) : Res (List (PyrLevel I)) :=
  if n = 0 then .fatal
  else .ok (if pyr.length = n then pyr else List.replicate n ⟨ops.alloc, 0, 0⟩)

/-- Level `i`; outside of the levels is undefined. -/
def levelAt (pyr : List (PyrLevel I)) (i : Nat) : Res (PyrLevel I) := readAt pyr i

/-- The image of level `i` is replaced. -/
def setImg (pyr : List (PyrLevel I)) (i : Nat) (img : I) : Res (List (PyrLevel I)) := do
  let l ← levelAt pyr i
  pure (pyr.set i { l with img := img })

/-- `nx_image_pyr_create_level`, `src/nx_image_pyr.c:84-95`. -/
def createLevel (pyr : List (PyrLevel I)) (i : Nat) (w h : Int) (scale : Rat) (sigma : ℝ) : Res (List (PyrLevel I)) :=
  if pyr.length ≤ i then .fatal
  else do
    let l ← levelAt pyr i
    let img ← ops.create l.img w h
    pure (pyr.set i ⟨img, scale, sigma⟩)

/-- `nx_image_pyr_copy_to_level0`, `src/nx_image_pyr.c:97-105`. -/
noncomputable def copyToLevel0 (pyr : List (PyrLevel I)) (img : I) (sigma : ℝ) : Res (List (PyrLevel I)) := do
  let pyr ← createLevel ops pyr 0 (ops.size img).1 (ops.size img).2 1 sigma
  let l ← levelAt pyr 0
  let c ← ops.copy l.img img
  setImg pyr 0 c

/-- `sigma0 * pow(2.0, i / (double)n_octave_steps)`, `src/nx_image_pyr_builder.c:212-213`. -/
noncomputable def levelSigma (b : PyrBuilder I) (i : Nat) : ℝ := b.sigma0 * (2 : ℝ) ^ ((i : ℝ) / b.steps)

/-- `pow(scale_factor, (int)scale_exp)`, `src/nx_image_pyr_builder.c:215`. -/
def levelScale (b : PyrBuilder I) (i : Nat) : Rat := b.factor ^ (i / b.steps)

/-- Body of the loop of `nx_image_pyr_builder_init_levels`, `src/nx_image_pyr_builder.c:212-220`. -/
noncomputable def initLevel (b : PyrBuilder I) (w h : Nat) (i : Nat) (pyr : List (PyrLevel I)) : Res (List (PyrLevel I)) :=
  let s := levelScale b i
  if b.steps = 0 ∨ s = 0 then .ub
  else do
    let wi ← truncInt (w / s)
    let hi ← truncInt (h / s)
    createLevel ops pyr i wi hi s (levelSigma b i)

/-- `nx_image_pyr_builder_init_levels`, `src/nx_image_pyr_builder.c:201-228`. -/
noncomputable def initLevels (b : PyrBuilder I) (pyr : List (PyrLevel I)) (w h : Nat) : Res (List (PyrLevel I)) :=
  if b.kind = .none ∨ w = 0 ∨ h = 0 then .fatal
  else do
    let pyr ← allocLevels ops pyr b.levels
    let pyr ← forLoop pyr.length (initLevel ops b w h) 0 pyr
    let l ← levelAt pyr 0
    if ops.size l.img = (w, h) then .ok pyr else .fatal

/-- `compute_sigma_g`, `src/nx_image_pyr_builder.c:325-331`; `none` is not a number. -/
noncomputable def sigmaG (current desired : ℝ) : Option ℝ :=
  let v := desired * desired - current * current
  if v < 0 then none else some (Real.sqrt v)

/-- Smoothing with a result of `sigmaG`; converting a kernel size that is not a number to `int` is undefined. -/
def smoothG (dest : Option I) (src : I) (s : Option ℝ) : Res I :=
  match s with
  | none => .ub
  | some s => ops.smooth dest src s

/-- `sigma_g > 0.0f` -/
def positive (s : Option ℝ) : Prop :=
  match s with
  | none => False
  | some s => 0 < s

open Classical in
/-- The first level is smoothed in place if needed, e.g. `src/nx_image_pyr_builder.c:233-238`: pyramid and current sigma. -/
noncomputable def smoothFirst (pyr : List (PyrLevel I)) : Res (List (PyrLevel I) × ℝ) := do
  let l ← levelAt pyr 0
  let g := sigmaG initialSigma l.sigma
  if positive g then do
    let img ← smoothG ops none l.img g
    let p ← setImg pyr 0 img
    pure (p, l.sigma)
  else pure (pyr, initialSigma)

/-- Body of the loop of `_nx_image_pyr_builder_update_fast`, `src/nx_image_pyr_builder.c:243-244`: work image and pyramid. -/
def fastBody (k : Nat) (s : I × List (PyrLevel I)) : Res (I × List (PyrLevel I)) := do
  let a ← levelAt s.2 k
  let work ← ops.downX s.1 a.img
  let b ← levelAt s.2 (k + 1)
  let img ← ops.downY b.img work
  let p ← setImg s.2 (k + 1) img
  pure (work, p)

/-- `_nx_image_pyr_builder_update_fast`, `src/nx_image_pyr_builder.c:231-246`. -/
noncomputable def updateFast (b : PyrBuilder I) (pyr : List (PyrLevel I)) : Res (I × List (PyrLevel I)) := do
  let p ← smoothFirst ops pyr
  forLoop (p.1.length - 1) (fastBody ops) 0 (b.work, p.1)

/-- State of `_nx_image_pyr_builder_update_fine`: work image, pyramid, current sigma and multiplier. -/
structure FineState (I : Type) where
  work : I
  pyr : List (PyrLevel I)
  current : ℝ
  mult : ℝ

/-- Body of the loop over the steps of an octave, `src/nx_image_pyr_builder.c:272-277`; `k + 1` is the step. -/
noncomputable def fineStep (first k : Nat) (s : FineState I) : Res (FineState I) := do
  let d ← levelAt s.pyr (first + (k + 1))
  let a ← levelAt s.pyr (first + k)
  let desired := d.sigma * s.mult
  let img ← smoothG ops (some d.img) a.img (sigmaG s.current desired)
  let p ← setImg s.pyr (first + (k + 1)) img
  pure { s with pyr := p, current := desired }

/-- Preparation of the next octave, `src/nx_image_pyr_builder.c:282-294`; `last` is the last level of the octave. -/
noncomputable def fineNext (last : Nat) (s : FineState I) : Res (FineState I) := do
  let n ← levelAt s.pyr (last + 1)
  let a ← levelAt s.pyr last
  let desired := n.sigma * s.mult
  let work ← smoothG ops (some s.work) a.img (sigmaG s.current desired)
  let img ← ops.down n.img work
  let p ← setImg s.pyr (last + 1) img
  pure { work := work, pyr := p, current := desired * (1 / 2), mult := s.mult * (1 / 2) }

/-- Body of the loop over the octaves, `src/nx_image_pyr_builder.c:256-294`, after the first image of the octave is there. -/
noncomputable def fineOctave (oct steps : Nat) (o : Nat) (s : FineState I) : Res (FineState I) := do
  let s ← forLoop (steps - 1) (fineStep ops (o * steps)) 0 s
  if o + 1 = oct then pure s else fineNext ops (o * steps + (steps - 1)) s

/-- `_nx_image_pyr_builder_update_fine`, `src/nx_image_pyr_builder.c:248-296`; the first image of the first octave is smoothed before
the loop, as that happens for `i == 0` only. -/
noncomputable def updateFine (b : PyrBuilder I) (pyr : List (PyrLevel I)) : Res (I × List (PyrLevel I)) := do
  let p ← smoothFirst ops pyr
  let s ← forLoop b.octaves (fineOctave ops b.octaves b.steps) 0 ⟨b.work, p.1, p.2, 1⟩
  pure (s.work, s.pyr)

/-- Body of the loop of `_nx_image_pyr_builder_update_scaled`, `src/nx_image_pyr_builder.c:314-321`; `k + 1` is the level. -/
noncomputable def scaledBody (k : Nat) (s : I × List (PyrLevel I) × ℝ) : Res (I × List (PyrLevel I) × ℝ) := do
  let d ← levelAt s.2.1 (k + 1)
  let work ← smoothG ops none s.1 (sigmaG s.2.2 d.sigma)
  let img ← ops.scale d.img work (1 / d.scale)
  let p ← setImg s.2.1 (k + 1) img
  pure (work, p, d.sigma)

/-- `_nx_image_pyr_builder_update_scaled`, `src/nx_image_pyr_builder.c:298-323`. -/
noncomputable def updateScaled (b : PyrBuilder I) (pyr : List (PyrLevel I)) : Res (I × List (PyrLevel I)) := do
  let p ← smoothFirst ops pyr
  let l ← levelAt p.1 0
  let work ← ops.copy b.work l.img
  let s ← forLoop (p.1.length - 1) (scaledBody ops) 0 (work, p.1, p.2)
  pure (s.1, s.2.1)

/-- `nx_image_pyr_builder_update`, `src/nx_image_pyr_builder.c:172-199`. -/
noncomputable def pyrUpdate (b : PyrBuilder I) (pyr : List (PyrLevel I)) : Res (I × List (PyrLevel I)) :=
  if b.kind = .none ∨ pyr.length = 0 ∨ pyr.length ≠ b.levels then .fatal
  else do
    let l ← levelAt pyr 0
    let pyr ← initLevels ops b pyr (ops.size l.img).1 (ops.size l.img).2
    match b.kind with
    | .fast => updateFast ops b pyr
    | .fine => updateFine ops b pyr
    | .scaled => updateScaled ops b pyr
    | .none => .fatal

/-- `nx_image_pyr_builder_build`, `src/nx_image_pyr_builder.c:159-170`, for a grayscale image: builder and pyramid. -/
noncomputable def pyrBuild (b : PyrBuilder I) (pyr : List (PyrLevel I)) (img : I) : Res (PyrBuilder I × List (PyrLevel I)) :=
  if b.kind = .none then .fatal
  else do
    let pyr ← allocLevels ops pyr b.levels
    let pyr ← copyToLevel0 ops pyr img b.sigma0
    let r ← pyrUpdate ops b pyr
    pure ({ b with work := r.1 }, r.2)

end

/-- `nx_image_resize` to 8-bit samples and the shortest rows, `src/nx_image.c:119-153`: the memory is kept as far as it is used. The
case that all is as asked for already, with rows of length zero, cannot change anything either. -/
def gRestride (junk : Nat → Byte) (img : GImage Byte) (w h : Int) : Res (GImage Byte) :=
  if w < 0 ∨ h < 0 then .fatal
  else if w.toNat * h.toNat ≤ 2147483647 then
    .ok ⟨w.toNat, h.toNat, w.toNat, (List.range (w.toNat * h.toNat)).map (fun k => (img.data[k]?).getD (junk k))⟩
  else .ub

/-- `2 * NX_PYR_KERNEL_TRUNCATION_FACTOR * sigma + 1` as `int`, `src/nx_filter.c:50`. -/
noncomputable def pyrKernel (sigma : ℝ) : Int := ⌊2 * 4 * sigma + 1⌋

/-- The functions for 8-bit images; `g` are the values of the Gaussian function. -/
noncomputable def byteOps (junk : Nat → Byte) (junkB : Nat → Rat) (g : ℝ → Nat → Rat) : PyrOps (GImage Byte) where
  alloc := ⟨0, 0, 0, []⟩
  size img := (img.width, img.height)
  create := gRestride junk
  copy _ src := .ok src
  smooth dest src sigma :=
    if pyrKernel sigma > 2147483647 then .ub
    else if sigma ≤ 0 then .fatal
    else do
      let r ← smooth byteVal storeByte junk junkB dest src (pyrKernel sigma) (pyrKernel sigma) (g sigma) (g sigma) none
      pure r.2
  downX := aaDownX aaUc junk
  downY := aaDownY aaUc junk
  down := gDownsample junk
  scale := gScale byteVal storeClamped junk

end Nx
