import Verif.Model.InPlace
import Verif.Model.Warp

/-!
# Model of `nx_image_scale` with the same image as source and destination

`VGImage::scaled_of`, `src/vg_image.cc:173-177`, passes any two images. If they are one, `nx_image_resize` has changed the sizes and the
stride of the source before it is read. Here `data` is the whole memory of the image, up to the capacity of its block. Scales and
positions are rational numbers, as in `Model/Warp.lean`.
-/

namespace Nx

/-- One pixel, `src/nx_image.c:557-579` and `645-660`: it is read from the memory that is written. -/
def ipScaleBody {α : Type} (conv : α → Rat) (store : Rat → Res α) (s : Rat) (st y x : Nat) (d : List α) : Res (List α) := do
  let v ← scalePixel conv store d st (x * (1 / s)) (y * (1 / s))
  writeAt d (y * st + x) v

/-- `nx_image_scale_uc`/`_f32`, `src/nx_image.c:535-581` and `620-662`, with `dest == src`. -/
def ipScale {α : Type} (conv : α → Rat) (store : Rat → Res α) (junk : Nat → α) (img : GImage α) (s : Rat) : Res (GImage α) := do
  let dw ← truncInt (img.width * s)
  let dh ← truncInt (img.height * s)
  if dw < 0 ∨ dh < 0 then .fatal
  else do
    let img ← ipResize junk img dw.toNat dh.toNat dw.toNat
    let d ← forLoop img.height (fun y d => forLoop img.width (ipScaleBody conv store s img.stride y) 0 d) 0 img.data
    pure { img with data := d }

end Nx
