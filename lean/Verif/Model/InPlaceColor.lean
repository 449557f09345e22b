import Verif.Model.ImageConv

/-!
# Model of `nx_image_apply_colormap` with the same image as source and destination

`VGImage::apply_colormap`, `src/vg_image.cc:147-153`, passes any two images. If they are one, `nx_image_resize` has made the grayscale
image one of four channels of bytes before it is read, so that the case of bytes runs whatever the samples were. Here `data` are the
bytes of the whole memory of the image, up to the capacity of its block.
-/

namespace Nx

/-- `nx_image_resize`, `src/nx_image.c:119-153`, of a grayscale image to four channels of bytes: the type changes, so that it is never
left as it is; memory is only added. -/
def ipResizeRgba (junk : Nat → Byte) (img : SImg Byte) : Res (SImg Byte) :=
  if 4 * img.width ≤ 2147483647 ∧ 4 * img.width * img.height ≤ 2147483647 then
    .ok ⟨true, img.width, img.height, 4 * img.width,
      img.data ++ (List.range (4 * img.width * img.height - img.data.length)).map junk⟩
  else .ub

/-- `src/nx_image.c:458-463`: the value is read from the memory that is written. -/
def ipColorBody (rd : Rat → Rat) (map : ColorMap) (st y x : Nat) (d : Bytes) : Res Bytes := do
  let v ← readAt d (y * st + x)
  let c ← cmApply rd map (rd (byteVal v / 255))
  let d ← writeAt d (y * st + 4 * x) c.1
  let d ← writeAt d (y * st + (4 * x + 1)) c.2.1
  let d ← writeAt d (y * st + (4 * x + 2)) c.2.2
  writeAt d (y * st + (4 * x + 3)) 255

/-- `nx_image_apply_colormap`, `src/nx_image.c:437-486`, with `color == gray`. -/
def ipColormap (rd : Rat → Rat) (map : ColorMap) (junk : Nat → Byte) (img : SImg Byte) : Res (SImg Byte) :=
  if img.rgba then .fatal
  else do
    let img ← ipResizeRgba junk img
    let d ← forLoop img.height (fun y d => forLoop img.width (ipColorBody rd map img.stride y) 0 d) 0 img.data
    pure { img with data := d }

end Nx
