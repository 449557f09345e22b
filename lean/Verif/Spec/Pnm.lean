import Verif.Model.Pnm

/-!
# Specification of image files
-/

namespace Nx

/-- Rows do not overlap and the memory is exactly that of all rows. -/
structure UImg.Wf (img : UImg) : Prop where
  stride_ge : (if img.rgba then 4 * img.width else img.width) ≤ img.stride
  length_eq : img.data.length = img.stride * img.height

/-- The value of the only channel. -/
def UImg.gray (img : UImg) (x y : Nat) : Option Byte := img.data[y * img.stride + x]?

/-- Channel `c` of a colour image: red, green, blue, alpha. -/
def UImg.chan (img : UImg) (x y c : Nat) : Option Byte := img.data[y * img.stride + (4 * x + c)]?

/-- A grayscale image with exactly these pixels. -/
structure UImg.ShowsGray (img : UImg) (w h : Nat) (f : Nat → Nat → Byte) : Prop where
  type_eq : img.rgba = false
  width_eq : img.width = w
  height_eq : img.height = h
  pixel_eq : ∀ x y, x < w → y < h → img.gray x y = some (f x y)

/-- A colour image with exactly these channels, `f x y c` for red, green, blue and `a x y` for alpha. -/
structure UImg.ShowsColor (img : UImg) (w h : Nat) (f : Nat → Nat → Nat → Byte) (a : Nat → Nat → Byte) : Prop where
  type_eq : img.rgba = true
  width_eq : img.width = w
  height_eq : img.height = h
  pixel_eq : ∀ x y c, x < w → y < h → c < 3 → img.chan x y c = some (f x y c)
  alpha_eq : ∀ x y, x < w → y < h → img.chan x y 3 = some (a x y)

end Nx
