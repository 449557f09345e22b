import Verif.Model.PngJpeg
import Verif.Spec.Pnm

/-!
# Specification of PNG and JPEG files
-/

namespace Nx

/-- Does a file with this colour type show colour? -/
def PngColour.isColour : PngColour → Bool
  | .gray => false
  | .ga => false
  | _ => true

/-- The type of the image that a file is loaded to. -/
def wantRgba (mode : LoadMode) (colour : Bool) : Bool :=
  match mode with
  | .gray => false
  | .rgba => true
  | .asIs => colour

/-- The alpha that a pixel should have. The alpha of gray files is dropped on purpose. -/
def PngFile.alpha (file : PngFile) (y x : Nat) : Byte :=
  match file.colour with
  | .rgba => (file.px y x).a
  | .ga => 255
  | _ => if file.trns then (file.px y x).a else 255

/-- The samples of a pixel of the image. -/
def PngFile.want (lum : Byte → Byte → Byte → Byte) (file : PngFile) (rgba : Bool) (y x : Nat) : Bytes :=
  match rgba, file.colour.isColour with
  | false, false => [(file.px y x).r]
  | false, true => [lum (file.px y x).r (file.px y x).g (file.px y x).b]
  | true, false => [(file.px y x).r, (file.px y x).r, (file.px y x).r, file.alpha y x]
  | true, true => [(file.px y x).r, (file.px y x).g, (file.px y x).b, file.alpha y x]

/-- The samples of a pixel of a JPEG file of gray or colour. -/
def JpegFile.want (lum : Byte → Byte → Byte → Byte) (file : JpegFile) (rgba : Bool) (y x : Nat) : Bytes :=
  match rgba, decide (file.space = .gray) with
  | false, true => [file.px y x 0]
  | false, false => [lum (file.px y x 0) (file.px y x 1) (file.px y x 2)]
  | true, true => [file.px y x 0, file.px y x 0, file.px y x 0, 255]
  | true, false => [file.px y x 0, file.px y x 1, file.px y x 2, 255]

/-- An image of this type and size with these samples. -/
structure UImg.Shows (img : UImg) (rgba : Bool) (w h : Nat) (px : Nat → Nat → Bytes) : Prop where
  type_eq : img.rgba = rgba
  width_eq : img.width = w
  height_eq : img.height = h
  wf : img.Wf
  pixel_eq : ∀ x y c, x < w → y < h → c < channels rgba → img.data[y * img.stride + (channels rgba * x + c)]? = (px y x)[c]?

/-- The two kinds of PNG files that are not loaded correctly. -/
def PngBad (mode : LoadMode) (c : PngColour) (trns : Bool) : Prop :=
  (mode = .rgba ∧ (c = .rgb ∨ c = .palette) ∧ trns = false) ∨ (mode = .asIs ∧ c = .gray ∧ trns = true)

end Nx
