import Verif.Model.Sample

/-!
# Specification of image sampling
-/

namespace Nx

/-- The pixel in column `x` and row `y`. -/
def GImage.pixel {α : Type} (img : GImage α) (x y : Nat) : Option α := img.data[y * img.stride + x]?

/-- Rows do not overlap and the memory is exactly that of all rows. -/
structure GImage.Wf {α : Type} (img : GImage α) : Prop where
  stride_ge : img.width ≤ img.stride
  length_eq : img.data.length = img.stride * img.height

/-- The image has exactly the pixels `f x y`. -/
structure GImage.Shows {α : Type} (img : GImage α) (w h : Nat) (f : Nat → Nat → α) : Prop where
  width_eq : img.width = w
  height_eq : img.height = h
  pixel_eq : ∀ x y, x < w → y < h → img.pixel x y = some (f x y)

/-- Interpolation at half pixels: `(X/2, Y/2)` lies between the pixels `x0, x1` and `y0, y1`. -/
def interp {α : Type} (avg2 : α → α → α) (avg4 : α → α → α → α → α) (f : Nat → Nat → α) (x0 x1 y0 y1 : Nat) : α :=
  if x0 = x1 then if y0 = y1 then f x0 y0 else avg2 (f x0 y0) (f x0 y1)
  else if y0 = y1 then avg2 (f x0 y0) (f x1 y0) else avg4 (f x0 y0) (f x1 y0) (f x0 y1) (f x1 y1)

/-- The next pixel towards the end, which repeats at the border. -/
def upper (X n : Nat) : Nat := min ((X + 1) / 2) (n - 1)

/-- Reflection at the first and last of `n` samples. -/
def reflect (n : Nat) (i : Int) : Nat :=
  if i < 0 then (-i).toNat else if i < n then i.toNat else (2 * ((n : Int) - 1) - i).toNat

/-- Weighted mean 1, 6, 11, 6, 1 around position `2 * x`, rounded down. -/
def smooth5 (n : Nat) (s : Nat → Nat) (x : Nat) : Nat :=
  (s (reflect n (2 * (x : Int) - 2)) + 6 * s (reflect n (2 * (x : Int) - 1)) + 11 * s (reflect n (2 * (x : Int)))
    + 6 * s (reflect n (2 * (x : Int) + 1)) + s (reflect n (2 * (x : Int) + 2))) / 25

/-- `b` is a value of 0 to 255 nearest to `255 * v`. -/
def NearestUc (v : Rat) (b : Nat) : Prop :=
  b ≤ 255 ∧ ∀ c : Nat, c ≤ 255 → (255 * v - b).abs ≤ (255 * v - c).abs

end Nx
