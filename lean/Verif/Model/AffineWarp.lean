import Verif.Model.Warp
import Verif.Model.SiftDesc
import Mathlib.Data.Rat.Floor

/-!
# Model of the simulation of affine views: `src/nx_affine_warp_processor.c`

Arithmetic of `float` and `double` is exact, conversions to `int` outside of its range are undefined. `sin`, `cos`, `sqrt` and
`exp` are parameters. The code without SSE is modelled. Assertions end the program. Images have one channel of 8 bits.
-/

namespace Nx

/-- An affine transformation by columns, `double forward_t[6]`, `src/nx_affine_warp_processor.c:68-69`. -/
structure Aff (K : Type) where
  t0 : K
  t1 : K
  t2 : K
  t3 : K
  t4 : K
  t5 : K
deriving DecidableEq, Repr

/-- `struct NXAffineWarpParam`, `include/virg/nexus/nx_affine_warp_processor.h:35-40`. -/
structure AwpParam (K : Type) where
  scale : K
  planar : K
  tilt : K
  tiltAngle : K

section
variable {K : Type} [Field K]

/-- `transform_set_identity`, `src/nx_affine_warp_processor.c:199-203`. -/
def affId : Aff K := ⟨1, 0, 0, 1, 0, 0⟩

/-- `transform_apply`, `src/nx_affine_warp_processor.c:205-212`. -/
def affApply (t : Aff K) (p : K × K) : K × K :=
  (p.1 * t.t0 + p.2 * t.t2 + t.t4, p.1 * t.t1 + p.2 * t.t3 + t.t5)

/-- `transform_combine`, `src/nx_affine_warp_processor.c:214-229`. -/
def affCombine (a b : Aff K) : Aff K where
  t0 := a.t0 * b.t0 + a.t2 * b.t1
  t1 := a.t1 * b.t0 + a.t3 * b.t1
  t2 := a.t0 * b.t2 + a.t2 * b.t3
  t3 := a.t1 * b.t2 + a.t3 * b.t3
  t4 := a.t0 * b.t4 + a.t2 * b.t5 + a.t4
  t5 := a.t1 * b.t4 + a.t3 * b.t5 + a.t5

/-- `nx_affine_warp_processor_update_forward_transform`, `src/nx_affine_warp_processor.c:244-259`; `c` and `s` are cosine and sine of
the angle. -/
def updForward (fwd : Aff K) (ci co : K × K) (sx sy c s : K) : Aff K :=
  let cx := sx * c
  let sx' := sx * s
  let cy := sy * c
  let sy' := sy * s
  let dx := co.1 - ci.1 * cx + ci.2 * sx'
  let dy := co.2 - ci.1 * sy' - ci.2 * cy
  affCombine ⟨cx, sy', -sx', cy, dx, dy⟩ fwd

/-- `nx_affine_warp_processor_update_inverse_transform`, `src/nx_affine_warp_processor.c:261-276`. -/
def updInverse (inv : Aff K) (ci co : K × K) (sx sy c s : K) : Aff K :=
  let cx := c / sx
  let sx' := s / sx
  let cy := c / sy
  let sy' := s / sy
  let dx := ci.1 - co.1 * cx - co.2 * sx'
  let dy := ci.2 + co.1 * sy' - co.2 * cy
  affCombine inv ⟨cx, -sy', sx', cy, dx, dy⟩

/-- `fill_inverse_transform`, `src/nx_affine_warp_processor.c:449-470`; the entries 2, 5 and 8, which are never read, are left out. -/
def fillInverse (ci co : K × K) (sx sy c s : K) : Aff K :=
  let cx := c / sx
  let sx' := s / sx
  let cy := c / sy
  let sy' := s / sy
  let dx := ci.1 - co.1 * cx - co.2 * sx'
  let dy := ci.2 + co.1 * sy' - co.2 * cy
  { t0 := cx, t1 := -sy', t2 := sx', t3 := cy, t4 := dx, t5 := dy }

end

section
variable {K : Type} [Field K] [LinearOrder K] [IsStrictOrderedRing K] [FloorRing K]

/-- `min4`, `src/nx_affine_warp_processor.c:278-283`. -/
def min4 (a b c d : K) : K :=
  let ab := if a < b then a else b
  let cd := if c < d then c else d
  if ab < cd then ab else cd

/-- `max4`, `src/nx_affine_warp_processor.c:285-290`. -/
def max4 (a b c d : K) : K :=
  let ab := if a > b then a else b
  let cd := if c > d then c else d
  if ab > cd then ab else cd

/-- `(int)r`. -/
def cInt (r : K) : Res Int := if InI32 (cTrunc r) then .ok (cTrunc r) else .ub

/-- `nx_affine_warp_processor_transformed_buffer_size`, `src/nx_affine_warp_processor.c:292-327`. -/
def awpSize (w h : Nat) (sx sy c s : K) (cur : Aff K) : Res (Int × Int) :=
  let req : Aff K := ⟨sx * c, sy * s, -sx * s, sy * c, 0, 0⟩
  let tl := affApply req (affApply cur (0, 0))
  let tr := affApply req (affApply cur ((w : K), 0))
  let bl := affApply req (affApply cur (0, (h : K)))
  let br := affApply req (affApply cur ((w : K), (h : K)))
  let rw := max4 tl.1 tr.1 bl.1 br.1 - min4 tl.1 tr.1 bl.1 br.1 + 2 * 1
  let rh := max4 tl.2 tr.2 bl.2 br.2 - min4 tl.2 tr.2 bl.2 br.2 + 2 * 1
  do
    let wo ← cInt rw
    let ho ← cInt rh
    pure (wo, ho)

/-- What is known after one buffer is resized: its size and the transformations from and to the image. -/
structure AwpStage (K : Type) where
  width : Nat
  height : Nat
  fwd : Aff K
  inv : Aff K
deriving DecidableEq, Repr

/-- `nx_affine_warp_processor_resize_buffer`, `src/nx_affine_warp_processor.c:359-378`, without the memory: `prev` is the buffer
before. Negative sizes end the program in `nx_image_resize`. -/
def awpResize (w h : Nat) (prev : AwpStage K) (sx sy c s : K) : Res (AwpStage K) := do
  let o ← awpSize w h sx sy c s prev.fwd
  if o.1 < 0 ∨ o.2 < 0 then .fatal
  else
    let ci : K × K := ((prev.width : K) / 2, (prev.height : K) / 2)
    let co : K × K := ((o.1 : K) / 2, (o.2 : K) / 2)
    pure ⟨o.1.toNat, o.2.toNat, updForward prev.fwd ci co sx sy c s, updInverse prev.inv ci co sx sy c s⟩

/-- `nx_affine_warp_processor_resize_buffers`, `src/nx_affine_warp_processor.c:329-357`: the three buffers. -/
def awpResizeAll (m : FloatMath K) (w h : Nat) (p : AwpParam K) : Res (AwpStage K × AwpStage K × AwpStage K) := do
  let s1 ← awpResize w h ⟨w, h, affId, affId⟩ 1 1 (m.cos p.tiltAngle) (m.sin p.tiltAngle)
  let s2 ← awpResize w h s1 (1 / p.tilt) 1 (m.cos 0) (m.sin 0)
  let s3 ← awpResize w h s2 p.scale p.scale (m.cos p.planar) (m.sin p.planar)
  pure (s1, s2, s3)

end

/-- One pixel of `warp_buffer_affine_bilinear`, `src/nx_affine_warp_processor.c:543-567`, for the position `(xp, yp)`: `none` where the
destination is left as it is. -/
def awpSample (src : GImage Byte) (xp yp : Rat) : Res (Option Byte) := do
  let xi ← truncInt xp
  let yi ← truncInt yp
  if xi < 0 ∨ xi ≥ (src.width : Int) - 1 ∨ yi < 0 ∨ yi ≥ (src.height : Int) - 1 then pure none
  else do
    let p ← readFour src.data src.stride (xi, xi + 1) (yi, yi + 1)
    let I ← truncInt (bilinear (xp - xi) (yp - yi) p.1.toNat p.2.1.toNat p.2.2.1.toNat p.2.2.2.toNat)
    pure (some (clampByte I))

/-- `drow[x] = I` or `continue`. -/
def putSome (d : List Byte) (i : Nat) : Option Byte → Res (List Byte)
  | none => .ok d
  | some b => writeAt d i b

/-- `warp_buffer_affine_bilinear`, `src/nx_affine_warp_processor.c:530-571`. -/
def awpWarp (dest src : GImage Byte) (t : Aff Rat) : Res (GImage Byte) := do
  let d ← forLoop dest.height (fun y d => forLoop dest.width (fun x d => do
    let b ← awpSample src (y * t.t2 + t.t4 + x * t.t0) (y * t.t3 + t.t5 + x * t.t1)
    putSome d (y * dest.stride + x) b) 0 d) 0 dest.data
  pure { dest with data := d }

/-- `enum NXAWPBgMode`, `src/nx_affine_warp_processor.c:54-58`. -/
inductive AwpMode where
  | fixed
  | repeat
  | noise
deriving DecidableEq, Repr

/-- The two positions along one direction for `NX_AWP_BG_REPEAT`, `src/nx_affine_warp_processor.c:617-636`, and whether `bg` is set. -/
def awpIndex (n : Nat) (i : Int) : Int × Int × Bool :=
  let last : Int := (n : Int) - 1
  if i ≤ 0 then (0, 0, true) else if i + 1 ≥ last then (last, last, true) else (i, i + 1, false)

/-- One pixel of `fill_warp_buffer_bg`, `src/nx_affine_warp_processor.c:588-652`: `none` where the result is left as it is; `s` is the
sample if one is drawn. `xpi + 1` overflows at the end of `int`. -/
def awpFillPixel (mode : AwpMode) (color : Byte) (img : GImage Byte) (xp yp s : Rat) : Res (Option Byte) := do
  let xi ← truncInt xp
  let yi ← truncInt yp
  if xi = 2147483647 ∨ yi = 2147483647 then .ub
  else
    let out := xi ≤ 0 ∨ xi + 1 ≥ (img.width : Int) - 1 ∨ yi ≤ 0 ∨ yi + 1 ≥ (img.height : Int) - 1
    match mode with
    | .fixed => if out then pure (some color) else pure none
    | .noise =>
      if out then do
        let b ← storeByte (255 * s)
        pure (some b)
      else pure none
    | .repeat =>
      let ix := awpIndex img.width xi
      let iy := awpIndex img.height yi
      if ix.2.2 || iy.2.2 then do
        let p ← readFour img.data img.stride (ix.1, ix.2.1) (iy.1, iy.2.1)
        let I ← truncInt (bilinear (xp - xi) (yp - yi) p.1.toNat p.2.1.toNat p.2.2.1.toNat p.2.2.2.toNat)
        pure (some (clampByte I))
      else pure none

/-- `fill_warp_buffer_bg`, `src/nx_affine_warp_processor.c:573-655`. -/
def awpFill (mode : AwpMode) (color : Byte) (img dest : GImage Byte) (t : Aff Rat) (noise : Nat → Nat → Rat) : Res (GImage Byte) := do
  let d ← forLoop dest.height (fun y d => forLoop dest.width (fun x d => do
    let b ← awpFillPixel mode color img (y * t.t2 + t.t4 + x * t.t0) (y * t.t3 + t.t5 + x * t.t1) (noise x y)
    putSome d (y * dest.stride + x) b) 0 d) 0 dest.data
  pure { dest with data := d }

/-- `nx_kernel_sym_gaussian`, `src/nx_filter.c:71-87`, with the assertion about `sigma`. -/
def kernelGauss (m : FloatMath Rat) (sigma : Rat) (nk : Nat) (kernel : List Rat) : Res (List Rat) :=
  if sigma > 0 then kernelSym (fun i => m.exp (-(1 / 2) * i * i / (sigma * sigma))) nk kernel else .fatal

/-- `warp_processor_blur`, `src/nx_affine_warp_processor.c:657-708`, for one thread; `junkB` is the initial memory of buffer and
kernel. -/
def awpBlur (m : FloatMath Rat) (junkB : Nat → Rat) (img : GImage Byte) (sx sy : Rat) : Res (GImage Byte) := do
  let tx ← truncInt (2 * 3 * sx + 1)
  let ty ← truncInt (2 * 3 * sy + 1)
  let nkx := (kernelSize tx).toNat
  let nky := (kernelSize ty).toNat
  let b := filterBuffer (max img.width img.height) (max nkx nky / 2) junkB
  let kernel := (List.range (max nkx nky / 2 + 1)).map junkB
  let kernel ← kernelGauss m sx (nkx / 2 + 1) kernel
  let s ← forLoop img.height (fun y s => do
    let b ← copyToBuffer byteVal 0 img.width s.1 (s.2.drop (y * img.stride)) 1 (nkx / 2) .mirror
    let b ← convolveSym img.width b (nkx / 2 + 1) kernel
    let d ← storeLine storeByte img.width (fun x => y * img.stride + x) b s.2
    pure (b, d)) 0 (b, img.data)
  let kernel ← kernelGauss m sy (nky / 2 + 1) kernel
  let s ← forLoop img.width (fun x s => do
    let b ← copyToBuffer byteVal 0 img.height s.1 (s.2.drop x) img.stride (nky / 2) .mirror
    let b ← convolveSym img.height b (nky / 2 + 1) kernel
    let d ← storeLine storeByte img.height (fun y => x + y * img.stride) b s.2
    pure (b, d)) 0 s
  pure { img with data := s.2 }

/-- A buffer after `nx_image_resize` and `nx_image_set_zero`, `src/nx_affine_warp_processor.c:372-373`. -/
def awpBuffer (s : AwpStage Rat) : Res (GImage Byte) :=
  if s.width * s.height ≤ 2147483647 then .ok ⟨s.width, s.height, s.width, List.replicate (s.width * s.height) 0⟩ else .ub

/-- The centre of a buffer, e.g. `iw/2.0f, ih/2.0f`, `src/nx_affine_warp_processor.c:403`. -/
def awpCentre (g : GImage Byte) : Rat × Rat := ((g.width : Rat) / 2, (g.height : Rat) / 2)

/-- `compute_skew_rotation_buffer`, `src/nx_affine_warp_processor.c:391-408`. -/
def awpSkew (m : FloatMath Rat) (junkB : Nat → Rat) (img buffer : GImage Byte) (tiltAngle tilt : Rat) : Res (GImage Byte) := do
  let b ← awpWarp buffer img (fillInverse (awpCentre img) (awpCentre buffer) 1 1 (m.cos tiltAngle) (m.sin tiltAngle))
  awpBlur m junkB b (8 / 10 * m.sqrt (tilt * tilt - 1)) 0

/-- `compute_subsample_buffer`, `src/nx_affine_warp_processor.c:410-428`. -/
def awpSubsample (m : FloatMath Rat) (junkB : Nat → Rat) (input out : GImage Byte) (tilt scale : Rat) : Res (GImage Byte) := do
  let b ← awpWarp out input (fillInverse (awpCentre input) (awpCentre out) (1 / tilt) 1 (m.cos 0) (m.sin 0))
  if scale > 1 then
    awpBlur m junkB b (8 / 10 * m.sqrt (scale * scale - 1)) (8 / 10 * m.sqrt (scale * scale - 1))
  else pure b

/-- `compute_result_buffer`, `src/nx_affine_warp_processor.c:430-447`. -/
def awpResult (m : FloatMath Rat) (junkB : Nat → Rat) (input res : GImage Byte) (scale planar sigma : Rat) : Res (GImage Byte) := do
  let b ← awpWarp res input (fillInverse (awpCentre input) (awpCentre res) scale scale (m.cos planar) (m.sin planar))
  awpBlur m junkB b sigma sigma

/-- `nx_affine_warp_processor_warp`, `src/nx_affine_warp_processor.c:136-154`: the result and the two transformations. -/
def awpRun (m : FloatMath Rat) (junkB : Nat → Rat) (img : GImage Byte) (p : AwpParam Rat) (mode : AwpMode) (color : Byte) (sigma : Rat)
    (noise : Nat → Nat → Rat) : Res (GImage Byte × Aff Rat × Aff Rat) := do
  let (s1, s2, s3) ← awpResizeAll m img.width img.height p
  let b1 ← awpBuffer s1
  let b2 ← awpBuffer s2
  let b3 ← awpBuffer s3
  let b1 ← awpSkew m junkB img b1 p.tiltAngle p.tilt
  let b2 ← awpSubsample m junkB b1 b2 p.tilt p.scale
  let b3 ← awpResult m junkB b2 b3 p.scale p.planar sigma
  let b3 ← awpFill mode color img b3 s3.inv noise
  pure (b3, s3.fwd, s3.inv)

end Nx
