import Verif.Model.AwpFloat

/-!
# Model of filling the background in `float` arithmetic, `src/nx_affine_warp_processor.c:573-655`

Like `awpFill` of `Model/AffineWarp.lean`, but every operation is rounded as IEEE 754 says, and the position is moved on from pixel to
pixel. Operations are not fused. Overflow of `float` is not modelled. The product `255.0f * NX_UNIFORM_SAMPLE_S` stays exact.
-/

namespace Nx

/-- One pixel of `fill_warp_buffer_bg`, `src/nx_affine_warp_processor.c:588-652`. -/
def awpFillPixelFl (mode : AwpMode) (color : Byte) (img : GImage Byte) (xp yp s : Rat) : Res (Option Byte) := do
  let xi ← truncInt xp
  let yi ← truncInt yp
  if xi = 2147483647 ∨ yi = 2147483647 then .ub
  else
    let out := xi ≤ 0 ∨ xi + 1 ≥ (img.width : Int) - 1 ∨ yi ≤ 0 ∨ yi + 1 ≥ (img.height : Int) - 1
    match mode with
    | .fixed => if out then pure (some color) else pure none
    | .noise =>
      if out then do
        let b ← storeByte (255 * s)
        pure (some b)
      else pure none
    | .repeat =>
      let ix := awpIndex img.width xi
      let iy := awpIndex img.height yi
      if ix.2.2 || iy.2.2 then do
        let p ← readFour img.data img.stride (ix.1, ix.2.1) (iy.1, iy.2.1)
        let I ← truncInt (bilinearFl (f32 (xp - f32 xi)) (f32 (yp - f32 yi)) p.1.toNat p.2.1.toNat p.2.2.1.toNat p.2.2.2.toNat)
        pure (some (clampByte I))
      else pure none

/-- `fill_warp_buffer_bg`, `src/nx_affine_warp_processor.c:573-655`. -/
def awpFillFl (mode : AwpMode) (color : Byte) (img dest : GImage Byte) (t : Aff Rat) (noise : Nat → Nat → Rat) : Res (GImage Byte) := do
  let d ← forLoop dest.height (fun y d => do
    let r ← forLoop dest.width (fun x (s : List Byte × Rat × Rat) => do
      let b ← awpFillPixelFl mode color img s.2.1 s.2.2 (noise x y)
      let d ← putSome s.1 (y * dest.stride + x) b
      pure (d, posStep s.2.1 t.t0, posStep s.2.2 t.t1)) 0 (d, rowStart y t.t2 t.t4, rowStart y t.t3 t.t5)
    pure r.1) 0 dest.data
  pure { dest with data := d }

end Nx
