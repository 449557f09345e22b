import Verif.Model.InPlace

/-!
# Model of the smoothed downsampling with the same image as source and destination

`nx_image_downsample_aa_x`/`_y`, `src/nx_image.c:860-871` and `:919-930`, accept the image itself as the destination. Then
`nx_image_resize` has changed the sizes and the stride of the source before it is read, and the length that is compared with twice the
new length is the new length. Here `data` is the whole memory of the image, up to the capacity of its block.
-/

namespace Nx

/-- Body of the loop over inner pixels, `src/nx_image.c:836-841` and `:892-898`, in one memory. -/
def ipAaBody {α : Type} (ops : AaOps α) (b st x : Nat) (d : List α) : Res (List α) := do
  let v ← aaInner ops d b st x
  writeAt d (b + x * st) v

/-- One row or column of the new length `m`, from `b` with distance `st`, `src/nx_image.c:831-854` and `:887-912`. -/
def ipAaLine {α : Type} (ops : AaOps α) (b st m : Nat) (d : List α) : Res (List α) := do
  let v ← aaFirst ops d b st
  let d ← writeAt d b v
  let d ← forLoop (m - 1) (ipAaBody ops b st) 1 d
  let v ← aaLast ops d b st m m
  writeI d (b + ((m : Int) - 1) * st) v

/-- `nx_image_downsample_aa_x_uc`/`_f32`, `src/nx_image.c:819-859`, with `dest == src`. -/
def ipAaDownX {α : Type} (ops : AaOps α) (junk : Nat → α) (img : GImage α) : Res (GImage α) := do
  let img ← ipResize junk img (img.width / 2) img.height 0
  let d ← forLoop img.height (fun y d => ipAaLine ops (y * img.stride) 1 img.width d) 0 img.data
  pure { img with data := d }

/-- `nx_image_downsample_aa_y_uc`/`_f32`, `src/nx_image.c:873-918`, with `dest == src`. -/
def ipAaDownY {α : Type} (ops : AaOps α) (junk : Nat → α) (img : GImage α) : Res (GImage α) := do
  let img ← ipResize junk img img.width (img.height / 2) 0
  let d ← forLoop img.width (fun x d => ipAaLine ops x img.stride img.height d) 0 img.data
  pure { img with data := d }

end Nx
