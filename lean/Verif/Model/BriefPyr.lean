import Verif.Model.Brief
import Verif.Model.Sample
import Verif.Model.Stereo

/-!
# Model of BRIEF descriptors on pyramids, `src/nx_brief_extractor.c`, `src/vg_brief_extractor.cc`

`rd` rounds to `float`, also an `int` that is converted; a conversion to `int` is exact, so that positions outside of the
range of `int` are not modelled. Cosine and sine of the angle are parameters.
-/

namespace Nx

/-- `struct NXImagePyrLevel`, `include/virg/nexus/nx_image_pyr.h:35-40`, with an 8-bit image. -/
structure BLevel where
  img : UcImage
  scale : Rat
deriving DecidableEq, Repr

/-- `scale_f`, `src/nx_brief_extractor.c:187-189`, `210-212` and `245-247`. -/
def briefScaleF (rd : Rat → Rat) (key sample : BLevel) : Rat := rd (key.scale / sample.scale)

/-- `(int)((x + offset) * scale_f)`, `src/nx_brief_extractor.c:191-194` and `220-223`, for the sum. -/
def briefPos (rd : Rat → Rat) (f : Rat) (v : Int) : Int := ratTrunc (rd (rd v * f))

/-- `nx_brief_extractor_check_point_pyr`, `src/nx_brief_extractor.c:175-198`. -/
def briefCheckPyr (rd : Rat → Rat) (be : Brief) (pyr : List BLevel) (x y level : Int) : Res Bool :=
  if (pyr.length : Int) ≤ level + be.pyrLevelOffset then .ok false
  else do
    let s ← readI pyr (level + be.pyrLevelOffset)
    let k ← readI pyr level
    pure (briefCheckPoint be (briefPos rd (briefScaleF rd k s)) s.img.width s.img.height x y)

/-- `nx_brief_extractor_compute_pyr`, `src/nx_brief_extractor.c:200-233`. -/
def briefDescPyr (rd : Rat → Rat) (be : Brief) (pyr : List BLevel) (x y level : Int) : Res Bytes := do
  let s ← readI pyr (level + be.pyrLevelOffset)
  let k ← readI pyr level
  briefComputePyr be (briefPos rd (briefScaleF rd k s)) s.img x y

/-- The extractor of `VGBriefExtractor::compute_pyr`, `src/vg_brief_extractor.cc:68-72`, for a keypoint. -/
def briefExt (rd : Rat → Rat) (be : Brief) (pyr : List BLevel) (k : NumKey) : Res (Option Bytes) := do
  let c ← briefCheckPyr rd be pyr k.x k.y k.level
  if c then do
    let d ← briefDescPyr rd be pyr k.x k.y k.level
    pure (some d)
  else pure none

/-- `sample_x0` and `sample_x1`, `src/nx_brief_extractor.c:259` and `261`. -/
def thetaX (rd : Rat → Rat) (ct st f : Rat) (x ox oy : Int) : Int :=
  ratTrunc (rd (rd (rd (rd x + rd (ct * rd ox)) + rd (st * rd oy)) * f))

/-- `sample_y0` and `sample_y1`, `src/nx_brief_extractor.c:260` and `262`. -/
def thetaY (rd : Rat → Rat) (ct st f : Rat) (y ox oy : Int) : Int :=
  ratTrunc (rd (rd (rd (rd y - rd (st * rd ox)) + rd (ct * rd oy)) * f))

/-- The test for the image, `src/nx_brief_extractor.c:264-265`, for one pixel. -/
def thetaOut (img : UcImage) (x y : Int) : Bool := x < 0 || x ≥ img.width || y < 0 || y ≥ img.height

/-- One test, `src/nx_brief_extractor.c:259-272`: `none` if it leaves the function. -/
def thetaTest (rd : Rat → Rat) (ct st f : Rat) (offsets : List Int) (img : UcImage) (x y : Int) (i : Nat) :
    Res (Option Bool) := do
  let ox0 ← readAt offsets (4 * i)
  let oy0 ← readAt offsets (4 * i + 1)
  let ox1 ← readAt offsets (4 * i + 2)
  let oy1 ← readAt offsets (4 * i + 3)
  let x0 := thetaX rd ct st f x ox0 oy0
  let y0 := thetaY rd ct st f y ox0 oy0
  let x1 := thetaX rd ct st f x ox1 oy1
  let y1 := thetaY rd ct st f y ox1 oy1
  if thetaOut img x0 y0 || thetaOut img x1 y1 then pure none
  else do
    let i0 ← img.get x0 y0
    let i1 ← img.get x1 y1
    pure (some (i0 > i1))

/-- The loop over the bits of an octet, `src/nx_brief_extractor.c:256-273`, for the tests from `i` on: whether the function
goes on, and the octet. -/
def thetaOctet (test : Nat → Res (Option Bool)) : Nat → Nat → UInt8 → Res (Bool × UInt8)
  | 0, _, d => .ok (true, d)
  | k + 1, i, d => do
    let t ← test i
    match t with
    | none => pure (false, d <<< 1)
    | some b => thetaOctet test k (i + 1) (if b then d <<< 1 ||| 1 else d <<< 1)

/-- The loop over the octets, `src/nx_brief_extractor.c:253-274`: the result and the memory at `desc`, where an octet is stored
when it is complete or the function is left. -/
def thetaLoop (test : Nat → Res (Option Bool)) : Nat → Nat → Bytes → Res (Bool × Bytes)
  | 0, _, desc => .ok (true, desc)
  | k + 1, j, desc => do
    let r ← thetaOctet test 8 (8 * j) 0
    let desc ← writeAt desc j r.2
    if r.1 then thetaLoop test k (j + 1) desc else pure (false, desc)

/-- `nx_brief_extractor_compute_pyr_at_theta`, `src/nx_brief_extractor.c:235-277`, with cosine `ct` and sine `st` of the angle. -/
def briefTheta (rd : Rat → Rat) (be : Brief) (pyr : List BLevel) (x y level : Int) (ct st : Rat) (desc : Bytes) :
    Res (Bool × Bytes) := do
  let s ← readI pyr (level + be.pyrLevelOffset)
  let k ← readI pyr level
  match be.offsets with
  | none => if be.nOctets ≤ 0 then .ok (true, desc) else .ub
  | some o => thetaLoop (thetaTest rd ct st (briefScaleF rd k s) o s.img x y) be.nOctets.toNat 0 desc

end Nx
