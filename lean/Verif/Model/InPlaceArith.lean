import Verif.Model.InPlace

/-!
# Model of image derivatives and subtraction into the image they read

`VGImage::deriv_x_of` and `deriv_y_of`, `src/vg_image.cc:211-221`, and `nx_image_subtract` accept an image of type `float` as source and
destination at once. Samples are rational numbers with exact arithmetic. `data` is the whole memory of the image.
-/

namespace Nx

/-- `src/nx_image.c:1202-1204` for `float`, where the row that is read is the one that is written. -/
def ipDerivXBody (st y x : Nat) (d : List Rat) : Res (List Rat) := do
  let a ← readAt d (y * st + (x + 1))
  let b ← readAt d (y * st + (x - 1))
  writeAt d (y * st + x) (a - b)

/-- One row of `nx_image_deriv_x_f32`, `src/nx_image.c:1199-1205`, with `dest == src`. -/
def ipDerivXRow (w st y : Nat) (d : List Rat) : Res (List Rat) := do
  let a ← readAt d (y * st + 1)
  let b ← readAt d (y * st)
  let d ← writeAt d (y * st) (2 * (a - b))
  let d ← forLoop (w - 1) (ipDerivXBody st y) 1 d
  let a ← readI d (y * st + ((w : Int) - 1))
  let b ← readI d (y * st + ((w : Int) - 2))
  writeI d (y * st + ((w : Int) - 1)) (2 * (a - b))

/-- `nx_image_deriv_x_f32`, `src/nx_image.c:1187-1211`, with `dest == src`. -/
def ipDerivX (junk : Nat → Rat) (img : GImage Rat) : Res (GImage Rat) := do
  let img ← ipResize junk img img.width img.height 0
  let d ← forLoop img.height (fun y d => ipDerivXRow img.width img.stride y d) 0 img.data
  pure { img with data := d }

/-- `nx_image_set_zero`, `src/nx_image.c:488-493`, with `nx_mem_block_set_zero`, `src/nx_mem_block.c:161-168`: the memory up to the size
of the
block, which is that of all rows. -/
def ipZero (n : Nat) (d : List Rat) : List Rat := (d.take n).map (fun _ => 0) ++ d.drop n

/-- `src/nx_image.c:1239-1240` with `dest == src`. -/
def ipDerivYFirst (st x : Nat) (d : List Rat) : Res (List Rat) := do
  let a ← readAt d (x + st)
  let b ← readAt d x
  writeAt d x (2 * (a - b))

/-- `src/nx_image.c:1247` with `dest == src`. -/
def ipDerivYBody (st y x : Nat) (d : List Rat) : Res (List Rat) := do
  let a ← readAt d ((y + 1) * st + x)
  let b ← readAt d ((y - 1) * st + x)
  writeAt d (y * st + x) (a - b)

/-- `src/nx_image.c:1251-1252` with `dest == src`. -/
def ipDerivYLast (h st x : Nat) (d : List Rat) : Res (List Rat) := do
  let a ← readI d (x + ((h : Int) - 1) * st)
  let b ← readI d (x + ((h : Int) - 2) * st)
  writeI d (x + ((h : Int) - 1) * st) (2 * (a - b))

/-- `nx_image_deriv_y_f32`, `src/nx_image.c:1226-1258`, with `dest == src`. -/
def ipDerivY (junk : Nat → Rat) (img : GImage Rat) : Res (GImage Rat) := do
  let img ← ipResize junk img img.width img.height 0
  let d := ipZero (img.stride * img.height) img.data
  let d ← forLoop img.width (ipDerivYFirst img.stride) 0 d
  let d ← forLoop (img.height - 1) (fun y d => forLoop img.width (ipDerivYBody img.stride y) 0 d) 1 d
  let d ← forLoop img.width (ipDerivYLast img.height img.stride) 0 d
  pure { img with data := d }

/-- `nx_image_subtract`, `src/nx_image.c:583-617`, for images of type `float` with `difference == img0` and another image `img1`. -/
def ipSubtract (junk : Nat → Rat) (img0 img1 : GImage Rat) : Res (GImage Rat) := do
  let w := min img0.width img1.width
  let h := min img0.height img1.height
  let img0 ← ipResize junk img0 w h 0
  let d ← forLoop h (fun y d => forLoop w (fun x d => do
    let a ← readAt d (y * img0.stride + x)
    let b ← readAt img1.data (y * img1.stride + x)
    writeAt d (y * img0.stride + x) (a - b)) 0 d) 0 img0.data
  pure { img0 with data := d }

/-! ### Subtraction of 8-bit images, at the level of bytes -/

/-- A sample of type `float` in memory of bytes, little-endian. -/
def readF32 (m : Bytes) (k : Nat) : Res (BitVec 32) := do
  let b0 ← readAt m (4 * k)
  let b1 ← readAt m (4 * k + 1)
  let b2 ← readAt m (4 * k + 2)
  let b3 ← readAt m (4 * k + 3)
  pure (b3.toBitVec ++ b2.toBitVec ++ b1.toBitVec ++ b0.toBitVec)

/-- Writing it. -/
def writeF32 (m : Bytes) (k : Nat) (v : BitVec 32) : Res Bytes := do
  let m ← writeAt m (4 * k) (UInt8.ofBitVec (v.extractLsb' 0 8))
  let m ← writeAt m (4 * k + 1) (UInt8.ofBitVec (v.extractLsb' 8 8))
  let m ← writeAt m (4 * k + 2) (UInt8.ofBitVec (v.extractLsb' 16 8))
  writeAt m (4 * k + 3) (UInt8.ofBitVec (v.extractLsb' 24 8))

/-- The bits of a small integer as `float`. -/
def f32OfInt (v : Int) : BitVec 32 :=
  if v = 0 then 0
  else
    let n := v.natAbs
    let e := n.log2
    BitVec.ofNat 32 ((if v < 0 then 2 ^ 31 else 0) + (127 + e) * 2 ^ 23 + (n * 2 ^ (23 - e) - 2 ^ 23))

/-- `nx_image_resize` of an 8-bit image to samples of type `float` without gaps, as called at `src/nx_image.c:596-597`: the type
changes, so that the memory is always resized; `data` are the bytes, width and stride count samples. -/
def ipResizeF32 (junk : Nat → UInt8) (img : GImage UInt8) (w h : Nat) : Res (GImage UInt8) :=
  if w * h ≤ 2147483647 then .ok ⟨w, h, w, img.data ++ (List.range (w * h * 4 - img.data.length)).map junk⟩
  else .ub

/-- `nx_image_subtract`, `src/nx_image.c:583-617`, for 8-bit images with `difference == img0` and another image `img1`. At the test
at line 598 the first image is of type `float` already, so that the second one is read as if it were; `sub` is the subtraction. -/
def ipSubBytesFirst (sub : BitVec 32 → BitVec 32 → BitVec 32) (junk : Nat → UInt8) (img0 img1 : GImage UInt8) :
    Res (GImage UInt8) := do
  let w := min img0.width img1.width
  let h := min img0.height img1.height
  let img0 ← ipResizeF32 junk img0 w h
  let d ← forLoop h (fun y d => forLoop w (fun x d => do
    let a ← readF32 d (y * img0.stride + x)
    let b ← readF32 img1.data (y * img1.stride + x)
    writeF32 d (y * img0.stride + x) (sub a b)) 0 d) 0 img0.data
  pure { img0 with data := d }

/-- The same with `difference == img1` and another image `img0`: the bytes that are subtracted are read from the memory of the
result, with its stride. -/
def ipSubBytesSecond (junk : Nat → UInt8) (img0 img1 : GImage UInt8) : Res (GImage UInt8) := do
  let w := min img0.width img1.width
  let h := min img0.height img1.height
  let img1 ← ipResizeF32 junk img1 w h
  let d ← forLoop h (fun y d => forLoop w (fun x d => do
    let a ← readAt img0.data (y * img0.stride + x)
    let b ← readAt d (y * img1.stride + x)
    writeF32 d (y * img1.stride + x) (f32OfInt ((a.toNat : Int) - (b.toNat : Int)))) 0 d) 0 img1.data
  pure { img1 with data := d }

end Nx
