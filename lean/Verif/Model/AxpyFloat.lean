import Verif.Model.ImageArith
import Verif.Model.Fround

/-!
# Model of `nx_image_axpy_uc` in `float` arithmetic, `src/nx_image.c:255-275`

Like `axpyUc` of `Model/ImageArith.lean`, but the product and the sum are rounded as IEEE 754 says, and are not fused.
-/

namespace Nx

/-- `int p = a * v + y` and the clamping, `src/nx_image.c:265-271`; a value outside `int` is undefined. -/
def axpyByteFl (a y : Rat) (v : Byte) : Res Byte :=
  let p := ratTrunc (f32 (f32 (a * v.toNat) + y))
  if InI32 p then .ok (UInt8.ofNat (if p < 0 then 0 else if p > 255 then 255 else p).toNat) else .ub

/-- `nx_image_axpy_uc`, `src/nx_image.c:255-275`. -/
def axpyUcFl (nc : Nat) (a y : Rat) (img : GImage Byte) : Res (GImage Byte) := do
  let d ← sampleLoop img nc (fun i d => do
    let v ← readAt d i
    let b ← axpyByteFl a y v
    writeAt d i b) img.data
  pure { img with data := d }

end Nx
