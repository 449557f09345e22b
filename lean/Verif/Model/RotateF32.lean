import Verif.Model.RotateFloat

/-!
# Model of the rotation of `float` images by 45 degrees in `float` arithmetic, `src/nx_image_warp.c:196-244`

Like `rotate45F32` of `Model/Warp.lean`, but every operation is rounded as IEEE 754 says. Operations are not fused. The conversion of the
result from `int` back to `float` is rounded, too.
-/

namespace Nx

/-- One pixel of `nx_image_rotate45_f32`, `src/nx_image_warp.c:216-241`: the result of the interpolation is an `int`. -/
def rotatePixelF32Fl (sw sh : Nat) (src : List Rat) (stride : Nat) (xp yp : Rat) : Res Rat := do
  let xi ← truncInt xp
  let yi ← truncInt yp
  let ix ← warpIndex .black sw xi
  let iy ← warpIndex .black sh yi
  match ix, iy with
  | some ix, some iy => do
    let p ← readFour src stride ix iy
    let I ← truncInt (bilinearFl (f32 (xp - f32 xi)) (f32 (yp - f32 yi)) p.1 p.2.1 p.2.2.1 p.2.2.2)
    pure (f32 I)
  | _, _ => pure 0

/-- `nx_image_rotate45_f32`, `src/nx_image_warp.c:196-244`. -/
def rotate45F32Fl (cw : Bool) (dest src : GImage Rat) : Res (GImage Rat) := do
  let k : Rat := if cw then 1 else -1
  let tx := rotTx k dest.width dest.height src.width
  let ty := rotTy k dest.width dest.height src.height
  let d ← forLoop dest.height (fun y d => do
    let r ← forLoop dest.width (fun x (s : List Rat × Rat × Rat) => do
      let b ← rotatePixelF32Fl src.width src.height src.data src.stride s.2.1 s.2.2
      let d ← writeAt s.1 (y * dest.stride + x) b
      pure (d, f32 (s.2.1 + sqrt2Inv), f32 (s.2.2 - f32 (k * sqrt2Inv)))) 0
      (d, f32 (f32 (f32 (k * f32 y) * sqrt2Inv) + tx), f32 (f32 (f32 y * sqrt2Inv) + ty))
    pure r.1) 0 dest.data
  pure { dest with data := d }

end Nx
