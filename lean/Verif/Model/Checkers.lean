import Verif.Model.ImageFilter
import Verif.Model.Warp

/-!
# Model of the detector of checkerboards, `src/nx_checkerboard_detector.c`

For gray images with 8-bit samples, none of which is the same as another. `c` is the value that the rotation uses for the root of
one half, `s` that of `sqrt(2.0)`, and `g` the values of the Gaussian function. Arithmetic is exact.
-/

namespace Nx

/-- `nx_image_alloc`, for the type of the images here. -/
def noImage {α : Type} : GImage α := ⟨0, 0, 0, []⟩

/-- `nx_checkers_local_radon_images`, `src/nx_checkerboard_detector.c:36-70`. -/
def checkersRadon (c s : Rat) (junk : Nat → Byte) (junkB : Nat → Rat) (lr : Fin 4 → Option (GImage Byte)) (img : GImage Byte) (r : Nat) :
    Res (Fin 4 → GImage Byte) := do
  let l0 ← gResize junk ((lr 0).getD noImage) img.width img.height 0
  let l1 ← gResize junk ((lr 1).getD noImage) img.width img.height 0
  let l2 ← gResize junk ((lr 2).getD noImage) img.width img.height 0
  let l3 ← gResize junk ((lr 3).getD noImage) img.width img.height 0
  if img.width + img.height + 2 > 2147483647 then .ub
  else do
    let n := (ratTrunc (((img.width + img.height + 2 : Nat) : Rat) / s)).toNat
    let b := filterBuffer (max n (max img.width img.height)) r junkB
    let p0 ← boxX byteVal storeByte junk junkB (some l0) img r (some b)
    let p1 ← boxY byteVal storeByte junk junkB (some l1) img r (some p0.1)
    let t ← gResize junk noImage n n 0
    let t ← rotate45Uc c true t img
    let p2 ← boxX byteVal storeByte junk junkB none t r (some p1.1)
    let l2 ← rotate45Uc c false l2 p2.2
    let t ← rotate45Uc c false p2.2 img
    let p3 ← boxX byteVal storeByte junk junkB none t r (some p2.1)
    let l3 ← rotate45Uc c true l3 p3.2
    pure fun | 0 => p0.2 | 1 => p1.2 | 2 => l2 | 3 => l3

/-- The value before smoothing, `min4_array_uc`, `max4_array_uc` and `src/nx_checkerboard_detector.c:97-100`. -/
def checkersPixel (a b c d : Byte) : Rat :=
  let lo : Rat := (min (min a.toNat b.toNat) (min c.toNat d.toNat) : Nat)
  let hi : Rat := (max (max a.toNat b.toNat) (max c.toNat d.toNat) : Nat)
  (hi / 255 - lo / 255) * (hi / 255 - lo / 255)

/-- `nx_checkers_score_image`, `src/nx_checkerboard_detector.c:85-104`; the size of the kernel is computed from `2 * 3 * 1.3 + 1`. -/
def checkersScore (g : Nat → Rat) (junk junkB : Nat → Rat) (score : GImage Rat) (lr : Fin 4 → GImage Byte) : Res (GImage Rat) := do
  let w := (lr 0).width
  let h := (lr 0).height
  let sc ← gResize junk score w h 0
  let d ← forLoop h (fun y d => forLoop w (fun x d => do
    let v0 ← readAt (lr 0).data (y * (lr 0).stride + x)
    let v1 ← readAt (lr 1).data (y * (lr 1).stride + x)
    let v2 ← readAt (lr 2).data (y * (lr 2).stride + x)
    let v3 ← readAt (lr 3).data (y * (lr 3).stride + x)
    writeAt d (y * sc.stride + x) (checkersPixel v0 v1 v2 v3)) 0 d) 0 sc.data
  let p ← smooth id .ok junk junkB none { sc with data := d } 8 8 g g none
  pure p.2

end Nx
