import Verif.Model.ImageArith
import Verif.Model.Fround

/-!
# Model of the normalisation of images in `float` arithmetic, `src/nx_image.c:204-253`, `:277-291`

Like `Model/ImageArith.lean`, but every operation is rounded as IEEE 754 says; a product and a sum are not fused. Overflow is not
modelled.
-/

namespace Nx

/-- `nx_image_axpy_f32`, `src/nx_image.c:277-291`; `nc` is the number of channels. -/
def axpyF32Fl (nc : Nat) (a y : Rat) (img : GImage Rat) : Res (GImage Rat) := do
  let d ← sampleLoop img nc (fun i d => do
    let v ← readAt d i
    writeAt d i (f32 (f32 (a * v) + y))) img.data
  pure { img with data := d }

/-- Scale and offset, `src/nx_image.c:223-239`. -/
def normCoeffsFl (sym : Bool) (vmin vmax : Rat) : Rat × Rat :=
  if vmax = vmin then (0, 0)
  else if sym then
    let tmin := if vmin < 0 then -vmin else vmin
    let tmax := if vmax < 0 then -vmax else vmax
    let t := if tmin > tmax then tmin else tmax
    (f32 (1 / f32 (2 * t)), 1 / 2)
  else (f32 (1 / f32 (vmax - vmin)), f32 (-vmin / f32 (vmax - vmin)))

/-- `nx_image_normalize_to_zero_one`, `src/nx_image.c:204-253`. -/
def gNormalizeFl (nc : Nat) (sym : Bool) (img : GImage Rat) : Res (GImage Rat) := do
  let m ← sampleLoop img nc (fun i m => do
    let v ← readAt img.data i
    pure (minMaxStep m v)) (fltMax, -fltMax)
  let k := normCoeffsFl sym m.1 m.2
  let img ← axpyF32Fl nc k.1 k.2 img
  let d ← sampleLoop img nc (fun i d => do
    let v ← readAt d i
    writeAt d i (clampUnit v)) img.data
  pure { img with data := d }

end Nx
