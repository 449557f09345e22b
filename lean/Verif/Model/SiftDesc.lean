import Mathlib.Algebra.Order.Floor.Ring
import Mathlib.Algebra.Order.Field.Basic
import Verif.Model.Sample

/-!
# Model of SIFT descriptors, `src/nx_sift_detector.c`

Exact arithmetic over an ordered field with integer parts; the functions of `math.h` and
the constant `NX_PI` are parameters. The images of derivatives have the same size, as the
detector creates them.
-/

namespace Nx

/-- The functions of `math.h` that are used, and `NX_PI`. -/
structure FloatMath (K : Type) where
  pi : K
  sqrt : K → K
  sin : K → K
  cos : K → K
  exp : K → K
  atan2 : K → K → K

section
variable {K : Type} [Field K] [LinearOrder K] [IsStrictOrderedRing K] [FloorRing K]

/-- Conversion to `int`: towards zero. -/
def cTrunc (x : K) : Int := if 0 ≤ x then ⌊x⌋ else ⌈x⌉

/-- `px > 0.0f ? (int)px : (int)(px - 1.0f)`, `src/nx_sift_detector.c:229-231`. -/
def cFloor (x : K) : Int := if x > 0 then cTrunc x else cTrunc (x - 1)

/-- `while (sample_ori > 2*NX_PI) sample_ori -= 2*NX_PI`, `src/nx_sift_detector.c:221-222`. -/
def wrapDown {K : Type} [Field K] [LinearOrder K] [IsStrictOrderedRing K] [FloorRing K] (p : K) (hp : 0 < p) (o : K) : K :=
  if o > p then wrapDown p hp (o - p) else o
termination_by ⌈o / p⌉.toNat
decreasing_by
  rename_i h
  have h1 : 1 < o / p := by rwa [one_lt_div hp]
  have h2 : (o - p) / p = o / p - 1 := by rw [sub_div, div_self hp.ne']
  have h3 : 1 < ⌈o / p⌉ := Int.lt_ceil.mpr (by simpa using h1)
  rw [h2, Int.ceil_sub_one]
  omega

/-- `while (sample_ori < 0.0f) sample_ori += 2*NX_PI`, `src/nx_sift_detector.c:223-224`. -/
def wrapUp {K : Type} [Field K] [LinearOrder K] [IsStrictOrderedRing K] [FloorRing K] (p : K) (hp : 0 < p) (o : K) : K :=
  if o < 0 then wrapUp p hp (o + p) else o
termination_by (-⌊o / p⌋).toNat
decreasing_by
  rename_i h
  have h1 : o / p < 0 := div_neg_of_neg_of_pos h hp
  have h2 : (o + p) / p = o / p + 1 := by rw [add_div, div_self hp.ne']
  have h3 : ⌊o / p⌋ < 0 := Int.floor_lt.mpr (by simpa using h1)
  rw [h2, Int.floor_add_one]
  omega

/-- `a[i] += v`. -/
def addAtI (a : List K) (i : Int) (v : K) : Res (List K) := do
  let x ← readI a i
  writeI a i (x + v)

/-- The update of a cell of the descriptor, `src/nx_sift_detector.c:240-246` and the like; `row` is the
row of cells, `col` the column, `ww` the weight. -/
def cellAdd (desc : List K) (row col hi0 hi1 : Int) (ww heps : K) : Res (List K) :=
  if 0 ≤ col ∧ col < 4 then do
    let ww1 := ww * heps
    let ww0 := ww - ww1
    let desc ← addAtI desc (row * 4 * 8 + (col * 8 + hi0)) ww0
    addAtI desc (row * 4 * 8 + (col * 8 + hi1)) ww1
  else pure desc

/-- The update of a row of cells, `src/nx_sift_detector.c:237-254` and `:255-272`. -/
def rowAdd (desc : List K) (row pxi hi0 hi1 : Int) (w xeps heps : K) : Res (List K) :=
  if 0 ≤ row ∧ row < 4 then do
    let desc ← cellAdd desc row pxi hi0 hi1 (w * (1 - xeps)) heps
    cellAdd desc row (pxi + 1) hi0 hi1 (w * xeps) heps
  else pure desc

/-- The update of the descriptor for one sample, `src/nx_sift_detector.c:229-272`. -/
def deposit (desc : List K) (px py h w : K) : Res (List K) := do
  let pxi := cFloor px
  let pyi := cFloor py
  let hi := cFloor h
  let hi0 := if hi ≥ 8 then 0 else hi
  let hi1 := if hi0 + 1 ≥ 8 then 0 else hi0 + 1
  let xeps := px - pxi
  let yeps := py - pyi
  let heps := h - hi
  let desc ← rowAdd desc pyi pxi hi0 hi1 (w * (1 - yeps)) xeps heps
  rowAdd desc (pyi + 1) pxi hi0 hi1 (w * yeps) xeps heps

/-- The fields of a keypoint that are used for its descriptor. -/
structure SiftKey (K : Type) where
  x : Int
  y : Int
  xs : K
  ys : K
  sigma : K
  ori : K

/-- `patch_size`, `src/nx_sift_detector.c:178`. -/
def patchSize (key : SiftKey K) (mag : Int) : K := key.sigma * mag

/-- `sample_radius`, `src/nx_sift_detector.c:179-181`. -/
def sampleRadius (m : FloatMath K) (key : SiftKey K) (mag : Int) : Int :=
  cTrunc (patchSize key mag * (5 / 2) * m.sqrt 2 + 1 / 2)

/-- Patch coordinates of a sample, `src/nx_sift_detector.c:203-206`. -/
def patchCoord (m : FloatMath K) (key : SiftKey K) (mag : Int) (dx dy : Int) : K × K :=
  let cori := m.cos key.ori
  let sori := m.sin key.ori
  let ry := cori * dy + sori * dx
  let rx := -sori * dy + cori * dx
  ((rx - (key.xs - key.x)) / patchSize key mag, (ry - (key.ys - key.y)) / patchSize key mag)

/-- The condition on patch coordinates, `src/nx_sift_detector.c:208-211`. -/
def inPatch (p : K × K) : Bool := decide (p.1 > -(5 / 2) ∧ p.1 < 5 / 2 ∧ p.2 > -(5 / 2) ∧ p.2 < 5 / 2)

/-- `sample_weight`, `src/nx_sift_detector.c:214-219`. -/
def sampleWeight (m : FloatMath K) (p : K × K) (gx gy : K) : K :=
  m.exp (-(1 / 2) * (p.1 * p.1 + p.2 * p.2) / (2 * 2)) * m.sqrt (gx * gx + gy * gy)

/-- `h`, `src/nx_sift_detector.c:215,220-228`. -/
def sampleBin (m : FloatMath K) (hp : 0 < 2 * m.pi) (key : SiftKey K) (gx gy : K) : K :=
  8 * (wrapUp (2 * m.pi) hp (wrapDown (2 * m.pi) hp (m.atan2 gy gx - key.ori)) / (2 * m.pi))

/-- The body of the inner loop, `src/nx_sift_detector.c:197-273`. -/
def sampleBody (m : FloatMath K) (hp : 0 < 2 * m.pi) (gx gy : GImage K) (key : SiftKey K) (mag : Int) (dx dy : Int)
    (desc : List K) : Res (List K) :=
  let sx := dx + key.x
  let sy := dy + key.y
  if sx < 0 ∨ sx ≥ gx.width then pure desc
  else
    let p := patchCoord m key mag dx dy
    if inPatch p then do
      let a ← readI gx.data (sy * gx.stride + sx)
      let b ← readI gy.data (sy * gy.stride + sx)
      deposit desc (p.1 + 2 - 1 / 2) (p.2 + 2 - 1 / 2) (sampleBin m hp key a (-b)) (sampleWeight m p a (-b))
    else pure desc

/-- `nx_sift_compute_fdescriptor`, `src/nx_sift_detector.c:168-276`; the array is initialised. -/
def fdescriptor (m : FloatMath K) (hp : 0 < 2 * m.pi) (gx gy : GImage K) (key : SiftKey K) (mag : Int) : Res (List K) :=
  let r := sampleRadius m key mag
  forLoop (2 * r + 1).toNat (fun k desc =>
    let dy := (k : Int) - r
    if dy + key.y < 0 ∨ dy + key.y ≥ gx.height then pure desc
    else forLoop (2 * r + 1).toNat (fun l desc => sampleBody m hp gx gy key mag ((l : Int) - r) dy desc) 0 desc) 0
    (List.replicate 128 0)

/-- `nx_svec_norm_sq`, `include/virg/nexus/nx_vec.h:127-138`. -/
def vecNormSq (v : List K) : K := v.foldl (fun s x => s + x * x) 0

/-- `nx_svec_to_unit`, `include/virg/nexus/nx_vec.h:148-164`: the vector. -/
def vecToUnit (m : FloatMath K) (v : List K) : List K :=
  let nrm := m.sqrt (vecNormSq v)
  if nrm ≠ 0 then v.map (fun x => x / nrm) else v

/-- `desc[i] = nx_min_i(255, (int)(512.0f * fdesc[i]))`, `src/nx_sift_detector.c:291-292`. Conversion of the
`int` to a byte is modulo 256; a value that does not fit in an `int` is undefined. -/
def quantize (x : K) : Res Byte :=
  let v := cTrunc (512 * x)
  if -2147483648 ≤ v ∧ v ≤ 2147483647 then .ok (UInt8.ofNat ((if 255 < v then 255 else v) % 256).toNat) else .ub

/-- `nx_sift_compute_descriptor`, `src/nx_sift_detector.c:278-293`, from the histogram on. -/
def finishDescriptor (m : FloatMath K) (fdesc : List K) : Res (List Byte) :=
  let fdesc := vecToUnit m fdesc
  let fdesc := fdesc.map (fun x => if x > 1 / 5 then 1 / 5 else x)
  let fdesc := vecToUnit m fdesc
  fdesc.foldr (fun x r => do
    let r ← r
    let b ← quantize x
    pure (b :: r)) (.ok [])

/-- `nx_sift_compute_descriptor`, `src/nx_sift_detector.c:278-293`. -/
def siftDescriptor (m : FloatMath K) (hp : 0 < 2 * m.pi) (gx gy : GImage K) (key : SiftKey K) (mag : Int) : Res (List Byte) := do
  let f ← fdescriptor m hp gx gy key mag
  finishDescriptor m f

end

end Nx
