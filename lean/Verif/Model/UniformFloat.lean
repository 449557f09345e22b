import Verif.Model.Fround
import Verif.Model.Warp

/-!
# Model of uniform samples in floating point: `src/nx_uniform_sampler.c`, `src/SFMT/SFMT.h`

Of the 32 bit numbers that the generator gives, with every result rounded.
-/

namespace Nx

/-- `nx_uniform_sampler_sample_s`, `src/nx_uniform_sampler.c:114-117`, with `sfmt_to_real2`, `src/SFMT/SFMT.h:237-241`: a `double` that is
returned as `float`. -/
def sampleSF (v : BitVec 32) : Rat := f32 (f64 (f64 v.toNat * f64 (1 / 4294967296)))

/-- `x | ((uint64_t)y << 32)`, `src/SFMT/SFMT.h:305`. -/
def mix64 (x y : BitVec 32) : BitVec 64 := x.setWidth 64 ||| (y.setWidth 64 <<< 32)

/-- `nx_uniform_sampler_sample_d`, `src/nx_uniform_sampler.c:119-122`, with `sfmt_to_res53` and `sfmt_to_res53_mix`,
`src/SFMT/SFMT.h:280-283` and `303-306`. -/
def sampleDF (x y : BitVec 32) : Rat := f64 (f64 (mix64 x y >>> 11).toNat * f64 (1 / 9007199254740992))

/-- `drow[x] = 255.0f * NX_UNIFORM_SAMPLE_S;`, `src/nx_image_warp.c:89` and `src/nx_affine_warp_processor.c:613`: a conversion to `uchar`,
undefined for other values. -/
def noiseByte (v : BitVec 32) : Res Byte :=
  let p := ratTrunc (f32 (255 * sampleSF v))
  if 0 ≤ p ∧ p ≤ 255 then .ok (UInt8.ofNat p.toNat) else .ub

end Nx
