import Verif.Model.ImageArith
import Verif.Model.Fround

/-!
# Model of image derivatives in `float` arithmetic, `src/nx_image.c:1187-1271`

Like `Model/ImageArith.lean`, but every operation on `float` numbers is rounded as IEEE 754 says. `diff` is the difference of two
samples: bytes are subtracted as `int`, which is then converted to `float` without loss; numbers of type `float` are subtracted with
rounding. Overflow is not modelled. Source and destination are different images.
-/

namespace Nx

/-- `src_row[x+1]-src_row[x-1]` for `uchar`, `src/nx_image.c:1203`: an `int`, converted to `float` by the division that follows. -/
def byteDiff (a b : Byte) : Rat := f32 (((a.toNat : Int) - (b.toNat : Int) : Int) : Rat)

/-- `src_row[x+1]-src_row[x-1]` for `float`, `src/nx_image.c:1203`. -/
def floatDiff (a b : Rat) : Rat := f32 (a - b)

/-- `(...)/S`, `src/nx_image.c:1203`, `:1247`. -/
def innerDeriv (S d : Rat) : Rat := f32 (d / S)

/-- `2.0f * (...)/S`, `src/nx_image.c:1201`, `:1205`, `:1239-1240`, `:1251-1252`. -/
def edgeDeriv (S d : Rat) : Rat := f32 (f32 (2 * d) / S)

/-- Body of the inner loop of `nx_image_deriv_x_uc`/`_f32`, `src/nx_image.c:1202-1204`. -/
def derivXBodyFl {β : Type} (diff : β → β → Rat) (S : Rat) (src : GImage β) (st y x : Nat) (d : List Rat) : Res (List Rat) := do
  let a ← readAt src.data (y * src.stride + (x + 1))
  let b ← readAt src.data (y * src.stride + (x - 1))
  writeAt d (y * st + x) (innerDeriv S (diff a b))

/-- One row of `nx_image_deriv_x_uc`/`_f32`, `src/nx_image.c:1199-1205`. -/
def derivXRowFl {β : Type} (diff : β → β → Rat) (S : Rat) (src : GImage β) (st w y : Nat) (d : List Rat) : Res (List Rat) := do
  let a ← readAt src.data (y * src.stride + 1)
  let b ← readAt src.data (y * src.stride)
  let d ← writeAt d (y * st) (edgeDeriv S (diff a b))
  let d ← forLoop (w - 1) (derivXBodyFl diff S src st y) 1 d
  let a ← readI src.data (y * src.stride + ((src.width : Int) - 1))
  let b ← readI src.data (y * src.stride + ((src.width : Int) - 2))
  writeI d (y * st + ((w : Int) - 1)) (edgeDeriv S (diff a b))

/-- `nx_image_deriv_x_uc`/`_f32`, `src/nx_image.c:1187-1211`. -/
def derivXFl {β : Type} (diff : β → β → Rat) (S : Rat) (junk : Nat → Rat) (dest : GImage Rat) (src : GImage β) :
    Res (GImage Rat) := do
  let dest ← gResize junk dest src.width src.height 0
  let d ← forLoop src.height (fun y d => derivXRowFl diff S src dest.stride dest.width y d) 0 dest.data
  pure { dest with data := d }

/-- Body of the first loop of `nx_image_deriv_y_uc`/`_f32`, `src/nx_image.c:1239-1240`. -/
def derivYFirstFl {β : Type} (diff : β → β → Rat) (S : Rat) (src : GImage β) (x : Nat) (d : List Rat) : Res (List Rat) := do
  let a ← readAt src.data (x + src.stride)
  let b ← readAt src.data x
  writeAt d x (edgeDeriv S (diff a b))

/-- Body of the loops over the inner rows, `src/nx_image.c:1247`. -/
def derivYBodyFl {β : Type} (diff : β → β → Rat) (S : Rat) (src : GImage β) (st y x : Nat) (d : List Rat) : Res (List Rat) := do
  let a ← readAt src.data ((y + 1) * src.stride + x)
  let b ← readAt src.data ((y - 1) * src.stride + x)
  writeAt d (y * st + x) (innerDeriv S (diff a b))

/-- Body of the last loop, `src/nx_image.c:1251-1252`: the stride of the destination is used for the source. -/
def derivYLastFl {β : Type} (diff : β → β → Rat) (S : Rat) (src : GImage β) (st x : Nat) (d : List Rat) : Res (List Rat) := do
  let a ← readI src.data (x + ((src.height : Int) - 1) * st)
  let b ← readI src.data (x + ((src.height : Int) - 2) * st)
  writeI d (x + ((src.height : Int) - 1) * st) (edgeDeriv S (diff a b))

/-- `nx_image_deriv_y_uc`/`_f32`, `src/nx_image.c:1226-1258`. -/
def derivYFl {β : Type} (diff : β → β → Rat) (S : Rat) (junk : Nat → Rat) (dest : GImage Rat) (src : GImage β) :
    Res (GImage Rat) := do
  let dest ← gResize junk dest src.width src.height 0
  let d := dest.data.map (fun _ => 0)
  let d ← forLoop dest.width (derivYFirstFl diff S src) 0 d
  let d ← forLoop (src.height - 1) (fun y d => forLoop dest.width (derivYBodyFl diff S src dest.stride y) 0 d) 1 d
  let d ← forLoop dest.width (derivYLastFl diff S src dest.stride) 0 d
  pure { dest with data := d }

/-- `nx_image_deriv_x` for bytes, `src/nx_image.c:1213-1224`. -/
def derivXUc (junk : Nat → Rat) (dest : GImage Rat) (src : GImage Byte) : Res (GImage Rat) := derivXFl byteDiff 255 junk dest src

/-- `nx_image_deriv_x` for `float`, `src/nx_image.c:1213-1224`. -/
def derivXF32 (junk : Nat → Rat) (dest src : GImage Rat) : Res (GImage Rat) := derivXFl floatDiff 1 junk dest src

/-- `nx_image_deriv_y` for bytes, `src/nx_image.c:1260-1271`. -/
def derivYUc (junk : Nat → Rat) (dest : GImage Rat) (src : GImage Byte) : Res (GImage Rat) := derivYFl byteDiff 255 junk dest src

/-- `nx_image_deriv_y` for `float`, `src/nx_image.c:1260-1271`. -/
def derivYF32 (junk : Nat → Rat) (dest src : GImage Rat) : Res (GImage Rat) := derivYFl floatDiff 1 junk dest src

end Nx
