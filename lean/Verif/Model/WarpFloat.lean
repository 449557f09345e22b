import Verif.Model.Warp
import Verif.Model.Fround

/-!
# Model of warping images in `float` arithmetic, `src/nx_image_warp.c:35-145`

Like `warpAffine` of `Model/Warp.lean`, but every operation is rounded as IEEE 754 says, and the position in the source is moved on
from pixel to pixel, so that its error grows along a row. Operations are not fused. Overflow of `float` is not modelled. The
product `255.0f * NX_UNIFORM_SAMPLE_S` for the noise stays exact.
-/

namespace Nx

/-- `vp*(up*p0[idx[0]] + u*p0[idx[1]]) + v*(up*p1[idx[0]] + u*p1[idx[1]])` with `up = 1.0f - u` and `vp = 1.0f - v`,
`src/nx_image_warp.c:69-70` and `134-135`. -/
def bilinearFl (u v a b c d : Rat) : Rat :=
  let up := f32 (1 - u)
  let vp := f32 (1 - v)
  f32 (f32 (vp * f32 (f32 (up * a) + f32 (u * b))) + f32 (v * f32 (f32 (up * c) + f32 (u * d))))

/-- One pixel of `nx_image_warp_affine_bilinear`, `src/nx_image_warp.c:63-142`, for the position `(xp, yp)` in the source; `s` is the
sample of the noise if one is drawn for this pixel. -/
def warpPixelFl (mode : WarpMode) (sw sh : Nat) (src : List Byte) (stride : Nat) (xp yp s : Rat) : Res Byte := do
  let xi ← truncInt xp
  let yi ← truncInt yp
  let ix ← warpIndex mode sw xi
  let iy ← warpIndex mode sh yi
  match ix, iy with
  | some ix, some iy => do
    let p ← readFour src stride ix iy
    let I ← truncInt (bilinearFl (f32 (xp - f32 xi)) (f32 (yp - f32 yi)) p.1.toNat p.2.1.toNat p.2.2.1.toNat p.2.2.2.toNat)
    pure (clampByte I)
  | _, _ => warpBackground mode s

/-- `float xp = y*t[3] + t[6]`, `src/nx_image_warp.c:57-58`, for the entries `a` and `b` of the transformation. -/
def rowStart (y : Nat) (a b : Rat) : Rat := f32 (f32 (f32 y * a) + b)

/-- `xp += t[0]` and `yp += t[1]`, `src/nx_image_warp.c:59`. -/
def posStep (xp a : Rat) : Rat := f32 (xp + a)

/-- `nx_image_warp_affine_bilinear`, `src/nx_image_warp.c:35-145`: the memory of the destination afterwards. The position is moved on
after pixels of the background, too. -/
def warpAffineFl (mode : WarpMode) (dw dh : Nat) (dest : List Byte) (dst : Nat) (sw sh : Nat) (src : List Byte) (sst : Nat)
    (t : Nat → Rat) (noise : Nat → Nat → Rat) : Res (List Byte) :=
  if sw * 2 > 2147483647 ∨ sh * 2 > 2147483647 then .ub
  else forLoop dh (fun y d => do
    let r ← forLoop dw (fun x (s : List Byte × Rat × Rat) => do
      let b ← warpPixelFl mode sw sh src sst s.2.1 s.2.2 (noise x y)
      let d ← writeAt s.1 (y * dst + x) b
      pure (d, posStep s.2.1 (t 0), posStep s.2.2 (t 1))) 0 (d, rowStart y (t 3) (t 6), rowStart y (t 4) (t 7))
    pure r.1) 0 dest

end Nx
