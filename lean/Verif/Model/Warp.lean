import Verif.Model.ImageFilter

/-!
# Model of warping, rotating and scaling images by bilinear interpolation: `src/nx_image_warp.c`, `src/nx_image.c:535-662`

Arithmetic of `float` is exact; a conversion to `int` outside of its range is undefined. Positions in the memory of an image do not
overflow. Source and destination do not overlap.
-/

namespace Nx

/-- `enum NXImageWarpBackgroundMode`, `include/virg/nexus/nx_image_warp.h:35-41`. -/
inductive WarpMode where
  | black
  | white
  | noise
  | repeat
  | mirror
deriving DecidableEq, Repr

/-- `int i = q` for a `float`. -/
def truncInt (q : Rat) : Res Int := if InI32 (ratTrunc q) then .ok (ratTrunc q) else .ub

/-- `-i - W2 * (-i / W2)`, `src/nx_image_warp.c:113`; division by zero is undefined. -/
def mirrorLow (w2 i : Int) : Res Int := if w2 = 0 then .ub else .ok (-i - w2 * (-i).tdiv w2)

/-- `W2 - i - W2 * (i / W2)`, `src/nx_image_warp.c:116`. -/
def mirrorHigh (w2 i : Int) : Res Int := if w2 = 0 then .ub else .ok (w2 - i - w2 * i.tdiv w2)

/-- The two positions `{ i, i + 1 }` along one direction with `n` pixels, `src/nx_image_warp.c:75-129`; `none` where the background
is taken. `i + 1` and, for mirrored images, `-i` overflow at the ends of `int`. -/
def warpIndex (mode : WarpMode) (n : Nat) (i : Int) : Res (Option (Int × Int)) :=
  let last : Int := (n : Int) - 1
  let w2 : Int := (n : Int) * 2 - 2
  if i = 2147483647 then .ub
  else
    match mode with
    | .black | .white | .noise => if i < 0 ∨ i ≥ last then .ok none else .ok (some (i, i + 1))
    | .repeat =>
      if i < 0 then .ok (some (0, 0)) else if i ≥ last then .ok (some (last, last)) else .ok (some (i, i + 1))
    | .mirror =>
      if i = -2147483648 then .ub
      else if i < 0 then do
        let a ← mirrorLow w2 i
        let b ← if i + 1 < 0 then mirrorLow w2 (i + 1) else .ok (i + 1)
        pure (some (a, b))
      else if i ≥ last then do
        let a ← if i ≥ n then mirrorHigh w2 i else .ok i
        let b ← if i + 1 ≥ n then mirrorHigh w2 (i + 1) else .ok (i + 1)
        pure (some (a, b))
      else .ok (some (i, i + 1))

/-- `vp*(up*p0[idx[0]] + u*p0[idx[1]]) + v*(up*p1[idx[0]] + u*p1[idx[1]])`, `src/nx_image_warp.c:134-135`. -/
def bilinear (u v a b c d : Rat) : Rat := (1 - v) * ((1 - u) * a + u * b) + v * ((1 - u) * c + u * d)

/-- Background, `src/nx_image_warp.c:49-51`, `83` and `90`; `s` is the sample of the noise. -/
def warpBackground (mode : WarpMode) (s : Rat) : Res Byte :=
  match mode with
  | .white => .ok 255
  | .noise => storeByte (255 * s)
  | _ => .ok 0

/-- `if (I < 0) I = 0; else if (I > 255) I = 255;` and the conversion, `src/nx_image_warp.c:137-142`. -/
def clampByte (p : Int) : Byte := UInt8.ofNat (if p < 0 then 0 else if p > 255 then 255 else p).toNat

/-- The four samples that are interpolated. -/
def readFour {α : Type} (src : List α) (stride : Nat) (ix iy : Int × Int) : Res (α × α × α × α) := do
  let a ← readI src (iy.1 * stride + ix.1)
  let b ← readI src (iy.1 * stride + ix.2)
  let c ← readI src (iy.2 * stride + ix.1)
  let d ← readI src (iy.2 * stride + ix.2)
  pure (a, b, c, d)

/-- One pixel of `nx_image_warp_affine_bilinear`, `src/nx_image_warp.c:63-142`, for the position `(xp, yp)` in the source; `s` is the
sample of the noise if one is drawn for this pixel. -/
def warpPixel (mode : WarpMode) (sw sh : Nat) (src : List Byte) (stride : Nat) (xp yp s : Rat) : Res Byte := do
  let xi ← truncInt xp
  let yi ← truncInt yp
  let ix ← warpIndex mode sw xi
  let iy ← warpIndex mode sh yi
  match ix, iy with
  | some ix, some iy => do
    let p ← readFour src stride ix iy
    let I ← truncInt (bilinear (xp - xi) (yp - yi) p.1.toNat p.2.1.toNat p.2.2.1.toNat p.2.2.2.toNat)
    pure (clampByte I)
  | _, _ => warpBackground mode s

/-- `nx_image_warp_affine_bilinear`, `src/nx_image_warp.c:35-145`: the memory of the destination afterwards; `t` are the entries of
the transformation by columns. `src_w * 2` and `src_h * 2` may overflow. -/
def warpAffine (mode : WarpMode) (dw dh : Nat) (dest : List Byte) (dst : Nat) (sw sh : Nat) (src : List Byte) (sst : Nat)
    (t : Nat → Rat) (noise : Nat → Nat → Rat) : Res (List Byte) :=
  if sw * 2 > 2147483647 ∨ sh * 2 > 2147483647 then .ub
  else forLoop dh (fun y d => forLoop dw (fun x d => do
    let b ← warpPixel mode sw sh src sst (y * t 3 + t 6 + x * t 0) (y * t 4 + t 7 + x * t 1) (noise x y)
    writeAt d (y * dst + x) b) 0 d) 0 dest

/-- The transformation of `nx_image_rotate45`, `src/nx_image_warp.c:154-163`: `c` is the root of one half, `cw` the sign. -/
def rotateT (c cw : Rat) (dw dh sw sh : Nat) : Nat → Rat
  | 0 => c
  | 1 => -(cw * c)
  | 3 => cw * c
  | 4 => c
  | 6 => (sw - c * (dw + cw * dh)) * (1 / 2)
  | 7 => (sh + c * (cw * dw - dh)) * (1 / 2)
  | _ => 0

/-- `nx_image_rotate45_uc`, `src/nx_image_warp.c:147-194`: the same loops as for a black background. -/
def rotate45Uc (c : Rat) (cw : Bool) (dest src : GImage Byte) : Res (GImage Byte) := do
  let t := rotateT c (if cw then 1 else -1) dest.width dest.height src.width src.height
  let d ← forLoop dest.height (fun y d => forLoop dest.width (fun x d => do
    let b ← warpPixel .black src.width src.height src.data src.stride (y * t 3 + t 6 + x * t 0) (y * t 4 + t 7 + x * t 1) 0
    writeAt d (y * dest.stride + x) b) 0 d) 0 dest.data
  pure { dest with data := d }

/-- One pixel of `nx_image_rotate45_f32`, `src/nx_image_warp.c:216-240`: the result of the interpolation is an `int`. -/
def rotatePixelF32 (sw sh : Nat) (src : List Rat) (stride : Nat) (xp yp : Rat) : Res Rat := do
  let xi ← truncInt xp
  let yi ← truncInt yp
  let ix ← warpIndex .black sw xi
  let iy ← warpIndex .black sh yi
  match ix, iy with
  | some ix, some iy => do
    let p ← readFour src stride ix iy
    let I ← truncInt (bilinear (xp - xi) (yp - yi) p.1 p.2.1 p.2.2.1 p.2.2.2)
    pure (I : Rat)
  | _, _ => pure 0

/-- `nx_image_rotate45_f32`, `src/nx_image_warp.c:196-244`. -/
def rotate45F32 (c : Rat) (cw : Bool) (dest src : GImage Rat) : Res (GImage Rat) := do
  let t := rotateT c (if cw then 1 else -1) dest.width dest.height src.width src.height
  let d ← forLoop dest.height (fun y d => forLoop dest.width (fun x d => do
    let b ← rotatePixelF32 src.width src.height src.data src.stride (y * t 3 + t 6 + x * t 0) (y * t 4 + t 7 + x * t 1)
    writeAt d (y * dest.stride + x) b) 0 d) 0 dest.data
  pure { dest with data := d }

/-- One pixel of `nx_image_scale_uc`/`_f32`, `src/nx_image.c:551-580` and `637-660`: the samples at `(xp, yp)` and to the right and
below are read always. -/
def scalePixel {α : Type} (conv : α → Rat) (store : Rat → Res α) (src : List α) (stride : Nat) (xp yp : Rat) : Res α := do
  let yi ← truncInt yp
  let xi ← truncInt xp
  let p ← readFour src stride (xi, xi + 1) (yi, yi + 1)
  store (bilinear (xp - xi) (yp - yi) (conv p.1) (conv p.2.1) (conv p.2.2.1) (conv p.2.2.2))

/-- `nx_image_scale_uc`/`_f32`, `src/nx_image.c:535-581` and `620-662`, for a scale that gives sizes in the range of `int`. -/
def gScale {α : Type} (conv : α → Rat) (store : Rat → Res α) (junk : Nat → α) (dest src : GImage α) (s : Rat) : Res (GImage α) := do
  let dw ← truncInt (src.width * s)
  let dh ← truncInt (src.height * s)
  if dw < 0 ∨ dh < 0 then .fatal
  else do
    let dest ← gResize junk dest dw.toNat dh.toNat dw.toNat
    let d ← forLoop dest.height (fun y d => forLoop dest.width (fun x d => do
      let v ← scalePixel conv store src.data src.stride (x * (1 / s)) (y * (1 / s))
      writeAt d (y * dest.stride + x) v) 0 d) 0 dest.data
    pure { dest with data := d }

/-- `short interp = …` and the clamping, `src/nx_image.c:571-579`. -/
def storeClamped (v : Rat) : Res Byte :=
  let p := ratTrunc v
  if -32768 ≤ p ∧ p ≤ 32767 then .ok (clampByte p) else .ub

end Nx
