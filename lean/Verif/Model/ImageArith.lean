import Verif.Model.Sample

/-!
# Model of pointwise image arithmetic and of image derivatives, `src/nx_image.c`

Samples of type `float` are rational numbers with exact arithmetic. `conv` takes a sample of the source to a number: the identity
for `float`, the value for `uchar`. Source and destination are different images.
-/

namespace Nx

/-- Body of the inner loop of `nx_image_deriv_x_uc`/`_f32`, `src/nx_image.c:1202-1204`; `S` is the divisor, 255 or 1. -/
def derivXBody {β : Type} (conv : β → Rat) (S : Rat) (src : GImage β) (st y x : Nat) (d : List Rat) : Res (List Rat) := do
  let a ← readAt src.data (y * src.stride + (x + 1))
  let b ← readAt src.data (y * src.stride + (x - 1))
  writeAt d (y * st + x) ((conv a - conv b) / S)

/-- One row of `nx_image_deriv_x_uc`/`_f32`, `src/nx_image.c:1199-1205`; `w` is the width of the destination and `st` its
stride. -/
def derivXRow {β : Type} (conv : β → Rat) (S : Rat) (src : GImage β) (st w y : Nat) (d : List Rat) : Res (List Rat) := do
  let a ← readAt src.data (y * src.stride + 1)
  let b ← readAt src.data (y * src.stride)
  let d ← writeAt d (y * st) (2 * (conv a - conv b) / S)
  let d ← forLoop (w - 1) (derivXBody conv S src st y) 1 d
  let a ← readI src.data (y * src.stride + ((src.width : Int) - 1))
  let b ← readI src.data (y * src.stride + ((src.width : Int) - 2))
  writeI d (y * st + ((w : Int) - 1)) (2 * (conv a - conv b) / S)

/-- `nx_image_deriv_x_uc`/`_f32`, `src/nx_image.c:1187-1211`. -/
def derivX {β : Type} (conv : β → Rat) (S : Rat) (junk : Nat → Rat) (dest : GImage Rat) (src : GImage β) :
    Res (GImage Rat) := do
  let dest ← gResize junk dest src.width src.height 0
  let d ← forLoop src.height (fun y d => derivXRow conv S src dest.stride dest.width y d) 0 dest.data
  pure { dest with data := d }

/-- Body of the first loop of `nx_image_deriv_y_uc`/`_f32`, `src/nx_image.c:1239-1240`. -/
def derivYFirst {β : Type} (conv : β → Rat) (S : Rat) (src : GImage β) (x : Nat) (d : List Rat) : Res (List Rat) := do
  let a ← readAt src.data (x + src.stride)
  let b ← readAt src.data x
  writeAt d x (2 * (conv a - conv b) / S)

/-- Body of the loops over the inner rows, `src/nx_image.c:1247`. -/
def derivYBody {β : Type} (conv : β → Rat) (S : Rat) (src : GImage β) (st y x : Nat) (d : List Rat) : Res (List Rat) := do
  let a ← readAt src.data ((y + 1) * src.stride + x)
  let b ← readAt src.data ((y - 1) * src.stride + x)
  writeAt d (y * st + x) ((conv a - conv b) / S)

/-- Body of the last loop, `src/nx_image.c:1251-1252`: the stride of the destination is used for the source. -/
def derivYLast {β : Type} (conv : β → Rat) (S : Rat) (src : GImage β) (st x : Nat) (d : List Rat) : Res (List Rat) := do
  let a ← readI src.data (x + ((src.height : Int) - 1) * st)
  let b ← readI src.data (x + ((src.height : Int) - 2) * st)
  writeI d (x + ((src.height : Int) - 1) * st) (2 * (conv a - conv b) / S)

/-- `nx_image_deriv_y_uc`/`_f32`, `src/nx_image.c:1226-1258`; `nx_image_set_zero`, `src/nx_image.c:488-493`, clears the memory. -/
def derivY {β : Type} (conv : β → Rat) (S : Rat) (junk : Nat → Rat) (dest : GImage Rat) (src : GImage β) :
    Res (GImage Rat) := do
  let dest ← gResize junk dest src.width src.height 0
  let d := dest.data.map (fun _ => 0)
  let d ← forLoop dest.width (derivYFirst conv S src) 0 d
  let d ← forLoop (src.height - 1) (fun y d => forLoop dest.width (derivYBody conv S src dest.stride y) 0 d) 1 d
  let d ← forLoop dest.width (derivYLast conv S src dest.stride) 0 d
  pure { dest with data := d }

/-- `nx_image_subtract`, `src/nx_image.c:583-617`, for images of the same type. -/
def gSubtract {β : Type} (conv : β → Rat) (junk : Nat → Rat) (dest : GImage Rat) (img0 img1 : GImage β) : Res (GImage Rat) := do
  let w := min img0.width img1.width
  let h := min img0.height img1.height
  let dest ← gResize junk dest w h 0
  let d ← forLoop h (fun y d => forLoop w (fun x d => do
    let a ← readAt img0.data (y * img0.stride + x)
    let b ← readAt img1.data (y * img1.stride + x)
    writeAt d (y * dest.stride + x) (conv a - conv b)) 0 d) 0 dest.data
  pure { dest with data := d }

/-- The loops over rows, pixels and channels, e.g. `src/nx_image.c:261-274`, with a body for one sample at a position. -/
def sampleLoop {α σ : Type} (img : GImage α) (nc : Nat) (body : Nat → σ → Res σ) (s : σ) : Res σ :=
  forLoop img.height (fun y s => forLoop img.width (fun x s =>
    forLoop nc (fun c s => body (y * img.stride + (nc * x + c)) s) 0 s) 0 s) 0 s

/-- `nx_image_axpy_f32`, `src/nx_image.c:277-291`; `nc` is the number of channels. -/
def axpyF32 (nc : Nat) (a y : Rat) (img : GImage Rat) : Res (GImage Rat) := do
  let d ← sampleLoop img nc (fun i d => do
    let v ← readAt d i
    writeAt d i (a * v + y)) img.data
  pure { img with data := d }

/-- `int p = a * v + y` and the clamping, `src/nx_image.c:265-271`; a value outside `int` is undefined. -/
def axpyByte (a y : Rat) (v : Byte) : Res Byte :=
  let p := ratTrunc (a * v.toNat + y)
  if InI32 p then .ok (UInt8.ofNat (if p < 0 then 0 else if p > 255 then 255 else p).toNat) else .ub

/-- `nx_image_axpy_uc`, `src/nx_image.c:255-275`. -/
def axpyUc (nc : Nat) (a y : Rat) (img : GImage Byte) : Res (GImage Byte) := do
  let d ← sampleLoop img nc (fun i d => do
    let v ← readAt d i
    let b ← axpyByte a y v
    writeAt d i b) img.data
  pure { img with data := d }

/-- `FLT_MAX`. -/
def fltMax : Rat := 340282346638528859811704183484516925440

/-- `if (v < vmin) vmin = v; else if (v > vmax) vmax = v;`, `src/nx_image.c:216-219`. -/
def minMaxStep (m : Rat × Rat) (v : Rat) : Rat × Rat :=
  if v < m.1 then (v, m.2) else if v > m.2 then (m.1, v) else m

/-- Scale and offset, `src/nx_image.c:223-239`. -/
def normCoeffs (sym : Bool) (vmin vmax : Rat) : Rat × Rat :=
  if vmax = vmin then (0, 0)
  else if sym then
    let tmin := if vmin < 0 then -vmin else vmin
    let tmax := if vmax < 0 then -vmax else vmax
    let t := if tmin > tmax then tmin else tmax
    (1 / (2 * t), 1 / 2)
  else (1 / (vmax - vmin), -vmin / (vmax - vmin))

/-- `if (v < 0) v = 0; else if (v > 1) v = 1;`, `src/nx_image.c:247-250`. -/
def clampUnit (v : Rat) : Rat := if v < 0 then 0 else if v > 1 then 1 else v

/-- `nx_image_normalize_to_zero_one`, `src/nx_image.c:204-253`. -/
def gNormalize (nc : Nat) (sym : Bool) (img : GImage Rat) : Res (GImage Rat) := do
  let m ← sampleLoop img nc (fun i m => do
    let v ← readAt img.data i
    pure (minMaxStep m v)) (fltMax, -fltMax)
  let k := normCoeffs sym m.1 m.2
  let img ← axpyF32 nc k.1 k.2 img
  let d ← sampleLoop img nc (fun i d => do
    let v ← readAt d i
    writeAt d i (clampUnit v)) img.data
  pure { img with data := d }

end Nx
