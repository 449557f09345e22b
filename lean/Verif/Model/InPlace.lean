import Verif.Model.Sample

/-!
# Model of image sampling with the same image as source and destination

`VGImage::downsampled_from`, `src/vg_image.cc:179-183`, and `nx_image_downsample`/`nx_image_upsample`, `src/nx_image.c`, accept the
image itself as the destination. Then `nx_image_resize` changes the sizes and the stride of the source too, and keeps the memory.
Here `data` is the whole memory of the image, up to the capacity of its block.
-/

namespace Nx

/-- `nx_image_resize`, `src/nx_image.c:119-153`, with `nx_mem_block_resize`, `src/nx_mem_block.c:61-95`: memory is only added, what
there was stays. -/
def ipResize {α : Type} (junk : Nat → α) (img : GImage α) (w h stride : Nat) : Res (GImage α) :=
  if img.width = w ∧ img.height = h ∧ img.stride = stride then .ok img
  else
    let stride := if stride < w then w else stride
    if stride * h ≤ 2147483647 then
      .ok ⟨w, h, stride, img.data ++ (List.range (stride * h - img.data.length)).map junk⟩
    else .ub

/-- `src/nx_image.c:694-696`, where the row of the source is in the memory that is written. -/
def ipDownBody {α : Type} (st y x : Nat) (d : List α) : Res (List α) := do
  let v ← readAt d (2 * y * st + 2 * x)
  writeAt d (y * st + x) v

/-- `nx_image_downsample_uc`/`_f32`, `src/nx_image.c:677-698`, with `dest == src`. -/
def ipDownsample {α : Type} (junk : Nat → α) (img : GImage α) : Res (GImage α) := do
  let img ← ipResize junk img (img.width / 2) (img.height / 2) (img.width / 2)
  let d ← forLoop img.height (fun y d => forLoop img.width (ipDownBody img.stride y) 0 d) 0 img.data
  pure { img with data := d }

/-- `src/nx_image.c:735-739`: each statement reads after the one before has written. -/
def ipUpBody {α : Type} (avg2 : α → α → α) (avg4 : α → α → α → α → α) (st y x : Nat) (d : List α) : Res (List α) := do
  let a ← readAt d (y * st + x)
  let d ← writeAt d (2 * y * st + 2 * x) a
  let a ← readAt d (y * st + x)
  let b ← readAt d (y * st + (x + 1))
  let d ← writeAt d (2 * y * st + (2 * x + 1)) (avg2 a b)
  let a ← readAt d (y * st + x)
  let c ← readAt d (y * st + st + x)
  let d ← writeAt d (2 * y * st + st + 2 * x) (avg2 a c)
  let a ← readAt d (y * st + x)
  let b ← readAt d (y * st + (x + 1))
  let c ← readAt d (y * st + st + x)
  let e ← readAt d (y * st + st + (x + 1))
  writeAt d (2 * y * st + st + (2 * x + 1)) (avg4 a b c e)

/-- One iteration of the outer loop, `src/nx_image.c:730-744`, for `w` columns, at least one. -/
def ipUpRow {α : Type} (avg2 : α → α → α) (avg4 : α → α → α → α → α) (w st y : Nat) (d : List α) : Res (List α) := do
  let d ← forLoop (w - 1) (ipUpBody avg2 avg4 st y) 0 d
  let a ← readI d (y * st + ((w : Int) - 1))
  let d ← writeI d (2 * y * st + (2 * (w : Int) - 2)) a
  let a ← readI d (y * st + ((w : Int) - 1))
  let d ← writeI d (2 * y * st + (2 * (w : Int) - 1)) a
  let a ← readI d (y * st + ((w : Int) - 1))
  let c ← readI d (y * st + st + ((w : Int) - 1))
  let d ← writeI d (2 * y * st + st + (2 * (w : Int) - 2)) (avg2 a c)
  let a ← readI d (y * st + ((w : Int) - 1))
  let c ← readI d (y * st + st + ((w : Int) - 1))
  writeI d (2 * y * st + st + (2 * (w : Int) - 1)) (avg2 a c)

/-- Body of the loop over the last row, `src/nx_image.c:749-754`. -/
def ipLastBody {α : Type} (avg2 : α → α → α) (h st x : Nat) (d : List α) : Res (List α) := do
  let a ← readI d (((h : Int) - 1) * st + x)
  let d ← writeI d (2 * ((h : Int) - 1) * st + 2 * x) a
  let a ← readI d (((h : Int) - 1) * st + x)
  let b ← readI d (((h : Int) - 1) * st + (x + 1))
  let d ← writeI d (2 * ((h : Int) - 1) * st + (2 * x + 1)) (avg2 a b)
  let a ← readI d (((h : Int) - 1) * st + x)
  let d ← writeI d (2 * ((h : Int) - 1) * st + st + 2 * x) a
  let a ← readI d (((h : Int) - 1) * st + x)
  let b ← readI d (((h : Int) - 1) * st + (x + 1))
  writeI d (2 * ((h : Int) - 1) * st + st + (2 * x + 1)) (avg2 a b)

/-- The last row, `src/nx_image.c:746-758`. -/
def ipUpLast {α : Type} (avg2 : α → α → α) (w h st : Nat) (d : List α) : Res (List α) := do
  let d ← forLoop (w - 1) (ipLastBody avg2 h st) 0 d
  let a ← readI d (((h : Int) - 1) * st + ((w : Int) - 1))
  let d ← writeI d (2 * ((h : Int) - 1) * st + (2 * (w : Int) - 2)) a
  let a ← readI d (((h : Int) - 1) * st + ((w : Int) - 1))
  let d ← writeI d (2 * ((h : Int) - 1) * st + (2 * (w : Int) - 1)) a
  let a ← readI d (((h : Int) - 1) * st + ((w : Int) - 1))
  let d ← writeI d (2 * ((h : Int) - 1) * st + st + (2 * (w : Int) - 2)) a
  let a ← readI d (((h : Int) - 1) * st + ((w : Int) - 1))
  writeI d (2 * ((h : Int) - 1) * st + st + (2 * (w : Int) - 1)) a

/-- `nx_image_upsample_uc`/`_f32`, `src/nx_image.c:716-804`, with `dest == src`: the loops run over the new sizes. -/
def ipUpsample {α : Type} (junk : Nat → α) (avg2 : α → α → α) (avg4 : α → α → α → α → α) (img : GImage α) : Res (GImage α) :=
  if 2 * img.width ≤ 2147483647 ∧ 2 * img.height ≤ 2147483647 then do
    let img ← ipResize junk img (2 * img.width) (2 * img.height) (2 * img.width)
    let d ← forLoop (img.height - 1) (ipUpRow avg2 avg4 img.width img.stride) 0 img.data
    let d ← ipUpLast avg2 img.width img.height img.stride d
    pure { img with data := d }
  else .ub

end Nx
