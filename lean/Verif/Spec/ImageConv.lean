import Verif.Model.ImageConv
import Mathlib.Algebra.Order.Floor.Semiring
import Mathlib.Data.Rat.Floor

/-! # Images with channels, rounding with a small error, and interpolation in a table -/

namespace Nx

/-- The rows of the image do not overlap and fill the memory. -/
structure SImg.Wf {α : Type} (img : SImg α) : Prop where
  stride_ge : (if img.rgba then 4 else 1) * img.width ≤ img.stride
  length_eq : img.data.length = img.stride * img.height

/-- A grayscale image with exactly these pixels. -/
structure SImg.ShowsGray {α : Type} (img : SImg α) (w h : Nat) (f : Nat → Nat → α) : Prop where
  wf : img.Wf
  rgba_eq : img.rgba = false
  width_eq : img.width = w
  height_eq : img.height = h
  pixel_eq : ∀ x y, x < w → y < h → img.data[y * img.stride + x]? = some (f x y)

/-- An image with four channels and exactly these pixels. -/
structure SImg.ShowsRgba {α : Type} (img : SImg α) (w h : Nat) (f : Nat → Nat → Nat → α) : Prop where
  wf : img.Wf
  rgba_eq : img.rgba = true
  width_eq : img.width = w
  height_eq : img.height = h
  pixel_eq : ∀ x y c, x < w → y < h → c < 4 → img.data[y * img.stride + (4 * x + c)]? = some (f x y c)

/-- Four channels. -/
def four {α : Type} (a b c d : α) : Nat → α
  | 0 => a
  | 1 => b
  | 2 => c
  | _ => d

/-- Rounding as that to `float`: it keeps the order and small integers, and has a small error up to 512. -/
structure FloatNear (rd : Rat → Rat) : Prop where
  mono : ∀ a b, a ≤ b → rd a ≤ rd b
  exact : ∀ n : Nat, n ≤ 16777216 → rd n = n
  near : ∀ x, 0 ≤ x → x ≤ 512 → |rd x - x| ≤ 1 / 65536

/-- Linear interpolation between the values of `f` at natural numbers. -/
def lerp (f : Nat → Rat) (t : Rat) : Rat := (1 - (t - ⌊t⌋₊)) * f ⌊t⌋₊ + (t - ⌊t⌋₊) * f (⌊t⌋₊ + 1)

/-- The byte is `v` rounded down, up to a small error. -/
def ByteOf (c : Byte) (v : Rat) : Prop := v - 1 - 1 / 16 < c.toNat ∧ (c.toNat : Rat) ≤ v + 1 / 16

/-- One channel of a colour map as a function of the position in the table; 0 behind the end. -/
def cmChannel (sel : Nat × Nat × Nat → Nat) (unit : Nat) (rows : List (Nat × Nat × Nat)) (k : Nat) : Rat :=
  match rows[k]? with
  | some e => (sel e : Rat) / unit
  | none => 0

end Nx
