import Verif.Model.AffineWarp
import Verif.Model.WarpFloat

/-!
# Model of the warps between buffers in `float` arithmetic, `src/nx_affine_warp_processor.c:530-571`

Like `awpWarp` of `Model/AffineWarp.lean`, but every operation is rounded as IEEE 754 says, and the position is moved on from pixel to
pixel. Operations are not fused. Overflow of `float` is not modelled. The entries of the transformation are given.
-/

namespace Nx

/-- One pixel of `warp_buffer_affine_bilinear`, `src/nx_affine_warp_processor.c:543-567`, for the position `(xp, yp)`: `none` where the
destination is left as it is. -/
def awpSampleFl (src : GImage Byte) (xp yp : Rat) : Res (Option Byte) := do
  let xi ← truncInt xp
  let yi ← truncInt yp
  if xi < 0 ∨ xi ≥ (src.width : Int) - 1 ∨ yi < 0 ∨ yi ≥ (src.height : Int) - 1 then pure none
  else do
    let p ← readFour src.data src.stride (xi, xi + 1) (yi, yi + 1)
    let I ← truncInt (bilinearFl (f32 (xp - f32 xi)) (f32 (yp - f32 yi)) p.1.toNat p.2.1.toNat p.2.2.1.toNat p.2.2.2.toNat)
    pure (some (clampByte I))

/-- `warp_buffer_affine_bilinear`, `src/nx_affine_warp_processor.c:530-571`. The position is moved on after `continue`, too. -/
def awpWarpFl (dest src : GImage Byte) (t : Nat → Rat) : Res (GImage Byte) := do
  let d ← forLoop dest.height (fun y d => do
    let r ← forLoop dest.width (fun x (s : List Byte × Rat × Rat) => do
      let b ← awpSampleFl src s.2.1 s.2.2
      let d ← putSome s.1 (y * dest.stride + x) b
      pure (d, posStep s.2.1 (t 0), posStep s.2.2 (t 1))) 0 (d, rowStart y (t 3) (t 6), rowStart y (t 4) (t 7))
    pure r.1) 0 dest.data
  pure { dest with data := d }

end Nx
