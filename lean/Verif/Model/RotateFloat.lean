import Verif.Model.WarpFloat

/-!
# Model of the rotation by 45 degrees in `float` arithmetic, `src/nx_image_warp.c:147-194`

Like `rotate45Uc` of `Model/Warp.lean`, but every operation is rounded as IEEE 754 says. Operations are not fused.
-/

namespace Nx

/-- `sqrt(2.0)`: the `double` next to the root of two. -/
def sqrtTwo : Rat := 6369051672525773 / 4503599627370496

/-- `const float SQRT2_INV = 1.0f / sqrt(2.0)`, `src/nx_image_warp.c:155`: a division of `double`, then rounded to `float`. -/
def sqrt2Inv : Rat := f32 (f64 (1 / sqrtTwo))

/-- `TX`, `src/nx_image_warp.c:156`; `k` is `CW`. -/
def rotTx (k : Rat) (dw dh sw : Nat) : Rat := f32 (f32 (f32 sw - f32 (sqrt2Inv * f32 (f32 dw + f32 (k * f32 dh)))) * (1 / 2))

/-- `TY`, `src/nx_image_warp.c:157`. -/
def rotTy (k : Rat) (dw dh sh : Nat) : Rat := f32 (f32 (f32 sh + f32 (sqrt2Inv * f32 (f32 (k * f32 dw) - f32 dh))) * (1 / 2))

/-- `nx_image_rotate45_uc`, `src/nx_image_warp.c:147-194`. -/
def rotate45UcFl (cw : Bool) (dest src : GImage Byte) : Res (GImage Byte) := do
  let k : Rat := if cw then 1 else -1
  let tx := rotTx k dest.width dest.height src.width
  let ty := rotTy k dest.width dest.height src.height
  let d ← forLoop dest.height (fun y d => do
    let r ← forLoop dest.width (fun x (s : List Byte × Rat × Rat) => do
      let b ← warpPixelFl .black src.width src.height src.data src.stride s.2.1 s.2.2 0
      let d ← writeAt s.1 (y * dest.stride + x) b
      pure (d, f32 (s.2.1 + sqrt2Inv), f32 (s.2.2 - f32 (k * sqrt2Inv)))) 0
      (d, f32 (f32 (f32 (k * f32 y) * sqrt2Inv) + tx), f32 (f32 (f32 y * sqrt2Inv) + ty))
    pure r.1) 0 dest.data
  pure { dest with data := d }

end Nx
