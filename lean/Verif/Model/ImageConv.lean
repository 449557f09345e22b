import Verif.Model.ColorMapData
import Verif.Model.Pnm
import Verif.Model.Warp
import Verif.Model.ImageFilter

/-!
# Model of conversions of images and of colour maps: `src/nx_colorspace.c`, `src/nx_image.c:287-486`

Samples of type `float` are rational numbers; `rd` rounds the result of each operation to `float`. The tables of colours are rounded
once. A pointer to samples is taken to be null exactly if the image has no samples. What a resized image contains before it is
written is arbitrary (`junk`). Image types and sample types other than those of the enumerations are not modelled.
-/

namespace Nx

/-- `struct NXImage`, `include/virg/nexus/nx_image.h:50-65`, with samples of one type. -/
structure SImg (α : Type) where
  rgba : Bool
  width : Nat
  height : Nat
  stride : Nat
  data : List α
deriving DecidableEq, Repr

/-- `nx_image_resize` with the default stride, `src/nx_image.c:119-153`; sizes are computed in `int`. -/
def sResize {α : Type} (junk : Nat → α) (rgba : Bool) (w h : Nat) : Res (SImg α) :=
  if channels rgba * w ≤ 2147483647 ∧ channels rgba * w * h ≤ 2147483647 then
    .ok ⟨rgba, w, h, channels rgba * w, (List.range (channels rgba * w * h)).map junk⟩
  else .ub

/-- `nx_rgb_to_gray_f32`, `include/virg/nexus/nx_colorspace.h:46-56`. The literals `0.3f`, `0.59f` and `0.11f` are 40265320,
79188456 and 14763950 times 2^-27. -/
def grayF32 (rd : Rat → Rat) (r g b : Rat) : Rat :=
  let v := rd (rd (rd (r * (40265320 / 134217728)) + rd (g * (79188456 / 134217728))) + rd (b * (14763950 / 134217728)))
  if v < 0 then 0 else if v > 1 then 1 else v

/-- Body of the inner loop of `nx_convert_gray_to_rgba_uc`/`_f32`, `src/nx_colorspace.c:58-61`, `:94-97`; `one` is the last
channel. -/
def toRgbaBody {α : Type} (one : α) (src : List α) (ss ds y x : Nat) (d : List α) : Res (List α) := do
  let v ← readAt src (y * ss + x)
  let d ← writeAt d (y * ds + 4 * x) v
  let v ← readAt src (y * ss + x)
  let d ← writeAt d (y * ds + (4 * x + 1)) v
  let v ← readAt src (y * ss + x)
  let d ← writeAt d (y * ds + (4 * x + 2)) v
  writeAt d (y * ds + (4 * x + 3)) one

/-- `nx_convert_gray_to_rgba_uc`/`_f32`, `src/nx_colorspace.c:48-64`, `:84-100`. -/
def toRgba {α : Type} (one : α) (w h : Nat) (d : List α) (ds : Nat) (src : List α) (ss : Nat) : Res (List α) :=
  forLoop h (fun y d => forLoop w (toRgbaBody one src ss ds y) 0 d) 0 d

/-- Body of the inner loop of `nx_convert_rgba_to_gray_uc`/`_f32`, `src/nx_colorspace.c:42-44`, `:78-80`. -/
def toGrayBody {α : Type} (gray : α → α → α → α) (src : List α) (ss ds y x : Nat) (d : List α) : Res (List α) := do
  let r ← readAt src (y * ss + 4 * x)
  let g ← readAt src (y * ss + (4 * x + 1))
  let b ← readAt src (y * ss + (4 * x + 2))
  writeAt d (y * ds + x) (gray r g b)

/-- `nx_convert_rgba_to_gray_uc`/`_f32`, `src/nx_colorspace.c:32-46`, `:66-82`. -/
def toGray {α : Type} (gray : α → α → α → α) (w h : Nat) (d : List α) (ds : Nat) (src : List α) (ss : Nat) : Res (List α) :=
  forLoop h (fun y d => forLoop w (toGrayBody gray src ss ds y) 0 d) 0 d

/-- The part of `nx_image_convert_type` behind the assertions, `src/nx_image.c:355-380`, with `convert_image_gray_to_rgba` and
`convert_image_rgba_to_gray`, `:287-328`; `one` and `gray` are those of the sample type. -/
def convertTypeMain {α : Type} (junk : Nat → α) (one : α) (gray : α → α → α → α) (img : SImg α) (rgba : Bool) : Res (SImg α) :=
  if img.rgba = rgba ∨ img.data = [] then .ok img
  else do
    let out ← sResize junk rgba img.width img.height
    let d ← if img.rgba then toGray gray img.width img.height out.data out.stride img.data img.stride
      else toRgba one img.width img.height out.data out.stride img.data img.stride
    pure { out with data := d }

/-- `nx_image_convert_type`, `src/nx_image.c:350-381`. It asserts that the image is grayscale. -/
def convertType {α : Type} (junk : Nat → α) (one : α) (gray : α → α → α → α) (img : SImg α) (rgba : Bool) : Res (SImg α) :=
  if img.rgba then .fatal else convertTypeMain junk one gray img rgba

/-- Body of the inner loop of `nx_image_convert_uc_to_f32`, `src/nx_image.c:395-397`. -/
def ucToF32Body (rd : Rat → Rat) (src : Bytes) (ss ds y x : Nat) (d : List Rat) : Res (List Rat) := do
  let v ← readAt src (y * ss + x)
  writeAt d (y * ds + x) (rd (byteVal v / 255))

/-- `nx_image_convert_uc_to_f32`, `src/nx_image.c:383-399`. -/
def ucToF32 (rd : Rat → Rat) (junk : Nat → Rat) (src : SImg Byte) : Res (SImg Rat) :=
  if src.rgba then .fatal
  else do
    let out ← sResize junk src.rgba src.width src.height
    let d ← forLoop out.height (fun y d => forLoop out.width (ucToF32Body rd src.data src.stride out.stride y) 0 d) 0 out.data
    pure { out with data := d }

/-- Body of the inner loop of `nx_image_convert_f32_to_uc`, `src/nx_image.c:413-417`: `nx_min_i(0, nx_max_i(255, value))`. -/
def f32ToUcBody (rd : Rat → Rat) (src : List Rat) (ss ds y x : Nat) (d : Bytes) : Res Bytes := do
  let v ← readAt src (y * ss + x)
  let value ← truncInt (rd (v * 255))
  let value := min 0 (max 255 value)
  writeAt d (y * ds + x) (UInt8.ofNat value.toNat)

/-- `nx_image_convert_f32_to_uc`, `src/nx_image.c:401-419`. -/
def f32ToUc (rd : Rat → Rat) (junk : Nat → Byte) (src : SImg Rat) : Res (SImg Byte) :=
  if src.rgba then .fatal
  else do
    let out ← sResize junk src.rgba src.width src.height
    let d ← forLoop out.height (fun y d => forLoop out.width (f32ToUcBody rd src.data src.stride out.stride y) 0 d) 0 out.data
    pure { out with data := d }

/-- `enum NXColorMap`, `include/virg/nexus/nx_colorspace.h:70-76`. -/
inductive ColorMap where
  | gray | viridis | plasma | magma | cubehelix
deriving DecidableEq, Repr

/-- The denominator and the numerators of a table of colours. -/
def cmTable : ColorMap → Option (Nat × List (Nat × Nat × Nat))
  | .gray => none
  | .viridis => some (1000000, viridisTable)
  | .plasma => some (1000000, plasmaTable)
  | .magma => some (1000000, magmaTable)
  | .cubehelix => some (1000000000000000000, cubehelixTable)

/-- `(1.0f-alpha)*a + alpha*b`, `src/nx_colorspace.c:115-117`. -/
def cmMix (rd : Rat → Rat) (unit : Nat) (alpha : Rat) (a b : Nat) : Rat :=
  rd (rd (rd (1 - alpha) * rd ((a : Rat) / unit)) + rd (alpha * rd ((b : Rat) / unit)))

/-- `interpolate_color_map_data`, `src/nx_colorspace.c:102-118`. -/
def cmInterp (rd : Rat → Rat) (unit : Nat) (rows : List (Nat × Nat × Nat)) (value : Rat) : Res (Rat × Rat × Rat) := do
  let t := rd (((rows.length : Rat) - 1) * value)
  let k ← truncInt t
  let alpha := rd (t - k)
  if k = (rows.length : Int) - 1 then do
    let a ← readI rows k
    pure (rd ((a.1 : Rat) / unit), rd ((a.2.1 : Rat) / unit), rd ((a.2.2 : Rat) / unit))
  else do
    let a ← readI rows k
    let b ← readI rows (k + 1)
    pure (cmMix rd unit alpha a.1 b.1, cmMix rd unit alpha a.2.1 b.2.1, cmMix rd unit alpha a.2.2 b.2.2)

/-- Stores of the three channels, `src/nx_colorspace.c:129-131`. -/
def cmStore (rd : Rat → Rat) (c : Rat × Rat × Rat) : Res (Byte × Byte × Byte) := do
  let r ← storeByte (rd (c.1 * 255))
  let g ← storeByte (rd (c.2.1 * 255))
  let b ← storeByte (rd (c.2.2 * 255))
  pure (r, g, b)

/-- `nx_color_map_apply`, `src/nx_colorspace.c:120-163`. -/
def cmApply (rd : Rat → Rat) (map : ColorMap) (value : Rat) : Res (Byte × Byte × Byte) :=
  match cmTable map with
  | none => cmStore rd (value, value, value)
  | some (unit, rows) => do
    let c ← cmInterp rd unit rows value
    cmStore rd c

/-- Body of the inner loops of `nx_image_apply_colormap`, `src/nx_image.c:458-463`, `:472-477`; `val` gives the value of a sample. -/
def cmBody {α : Type} (rd : Rat → Rat) (map : ColorMap) (val : α → Rat) (src : List α) (ss ds y x : Nat) (d : Bytes) : Res Bytes := do
  let v ← readAt src (y * ss + x)
  let c ← cmApply rd map (val v)
  let d ← writeAt d (y * ds + 4 * x) c.1
  let d ← writeAt d (y * ds + (4 * x + 1)) c.2.1
  let d ← writeAt d (y * ds + (4 * x + 2)) c.2.2
  writeAt d (y * ds + (4 * x + 3)) 255

/-- `nx_image_apply_colormap`, `src/nx_image.c:437-486`. -/
def applyColormap {α : Type} (rd : Rat → Rat) (map : ColorMap) (val : α → Rat) (junk : Nat → Byte) (gray : SImg α) : Res (SImg Byte) :=
  if gray.rgba then .fatal
  else do
    let out ← sResize junk true gray.width gray.height
    let d ← forLoop gray.height (fun y d => forLoop gray.width (cmBody rd map val gray.data gray.stride out.stride y) 0 d) 0 out.data
    pure { out with data := d }

end Nx
