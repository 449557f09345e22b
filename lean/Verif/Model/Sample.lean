import Verif.Model.Getline
import Verif.Model.FastThreshold

/-!
# Model of image sampling, `src/nx_image.c`

Grayscale images over an arbitrary type of samples. The memory of an image is a list;
what a resized image contains before it is written is arbitrary (`junk`).
-/

namespace Nx

/-- `for (int i = i0; i < n; ++i) body`. -/
def forLoop {σ : Type} (n : Nat) (body : Nat → σ → Res σ) (i : Nat) (s : σ) : Res σ :=
  if i < n then do
    let s ← body i s
    forLoop n body (i + 1) s
  else .ok s
termination_by n - i

/-- Reading at a signed offset. -/
def readI {α : Type} (a : List α) (i : Int) : Res α := if 0 ≤ i then readAt a i.toNat else .ub

/-- Writing at a signed offset. -/
def writeI {α : Type} (a : List α) (i : Int) (x : α) : Res (List α) := if 0 ≤ i then writeAt a i.toNat x else .ub

/-- `struct NXImage`, `include/virg/nexus/nx_image.h:50-65`, of type grayscale. -/
structure GImage (α : Type) where
  width : Nat
  height : Nat
  stride : Nat
  data : List α
deriving DecidableEq, Repr

/-- `nx_image_resize`, `src/nx_image.c:119-153`, for unchanged type and data type with one
channel. The size is computed in `int`. -/
def gResize {α : Type} (junk : Nat → α) (img : GImage α) (w h stride : Nat) : Res (GImage α) :=
  if img.width = w ∧ img.height = h ∧ img.stride = stride then .ok img
  else
    let stride := if stride < w then w else stride
    if stride * h ≤ 2147483647 then .ok ⟨w, h, stride, (List.range (stride * h)).map junk⟩ else .ub

/-- Body of `nx_image_downsample_uc`/`_f32`, `src/nx_image.c:694-696`. -/
def downBody {α : Type} (src dest : GImage α) (y x : Nat) (d : List α) : Res (List α) := do
  let v ← readAt src.data (2 * y * src.stride + 2 * x)
  writeAt d (y * dest.stride + x) v

/-- `nx_image_downsample_uc`/`_f32`, `src/nx_image.c:677-702`. -/
def gDownsample {α : Type} (junk : Nat → α) (dest src : GImage α) : Res (GImage α) := do
  let dest ← gResize junk dest (src.width / 2) (src.height / 2) (src.width / 2)
  let d ← forLoop dest.height (fun y d => forLoop dest.width (downBody src dest y) 0 d) 0 dest.data
  pure { dest with data := d }

/-- Body of the inner loop of `nx_image_upsample_uc`/`_f32`, `src/nx_image.c:735-739` and
`:780-784`; `avg2` and `avg4` are the averages of the sample type. -/
def upBody {α : Type} (avg2 : α → α → α) (avg4 : α → α → α → α → α) (src dest : GImage α) (y x : Nat) (d : List α) :
    Res (List α) := do
  let a ← readAt src.data (y * src.stride + x)
  let b ← readAt src.data (y * src.stride + (x + 1))
  let c ← readAt src.data (y * src.stride + src.stride + x)
  let e ← readAt src.data (y * src.stride + src.stride + (x + 1))
  let d ← writeAt d (2 * y * dest.stride + 2 * x) a
  let d ← writeAt d (2 * y * dest.stride + (2 * x + 1)) (avg2 a b)
  let d ← writeAt d (2 * y * dest.stride + dest.stride + 2 * x) (avg2 a c)
  writeAt d (2 * y * dest.stride + dest.stride + (2 * x + 1)) (avg4 a b c e)

/-- One iteration of the outer loop, `src/nx_image.c:730-744`. -/
def upRow {α : Type} (avg2 : α → α → α) (avg4 : α → α → α → α → α) (src dest : GImage α) (y : Nat) (d : List α) :
    Res (List α) := do
  let d ← forLoop (src.width - 1) (upBody avg2 avg4 src dest y) 0 d
  let a ← readI src.data (y * src.stride + ((src.width : Int) - 1))
  let c ← readI src.data (y * src.stride + src.stride + ((src.width : Int) - 1))
  let d ← writeI d (2 * y * dest.stride + (2 * (src.width : Int) - 2)) a
  let d ← writeI d (2 * y * dest.stride + (2 * (src.width : Int) - 1)) a
  let d ← writeI d (2 * y * dest.stride + dest.stride + (2 * (src.width : Int) - 2)) (avg2 a c)
  writeI d (2 * y * dest.stride + dest.stride + (2 * (src.width : Int) - 1)) (avg2 a c)

/-- Body of the loop over the last row, `src/nx_image.c:750-753`. -/
def upLastBody {α : Type} (avg2 : α → α → α) (src dest : GImage α) (x : Nat) (d : List α) : Res (List α) := do
  let a ← readI src.data (((src.height : Int) - 1) * src.stride + x)
  let b ← readI src.data (((src.height : Int) - 1) * src.stride + (x + 1))
  let d ← writeI d (2 * ((src.height : Int) - 1) * dest.stride + 2 * x) a
  let d ← writeI d (2 * ((src.height : Int) - 1) * dest.stride + (2 * x + 1)) (avg2 a b)
  let d ← writeI d (2 * ((src.height : Int) - 1) * dest.stride + dest.stride + 2 * x) a
  writeI d (2 * ((src.height : Int) - 1) * dest.stride + dest.stride + (2 * x + 1)) (avg2 a b)

/-- The last row, `src/nx_image.c:746-758`. -/
def upLast {α : Type} (avg2 : α → α → α) (src dest : GImage α) (d : List α) : Res (List α) := do
  let d ← forLoop (src.width - 1) (upLastBody avg2 src dest) 0 d
  let a ← readI src.data (((src.height : Int) - 1) * src.stride + ((src.width : Int) - 1))
  let d ← writeI d (2 * ((src.height : Int) - 1) * dest.stride + (2 * (src.width : Int) - 2)) a
  let d ← writeI d (2 * ((src.height : Int) - 1) * dest.stride + (2 * (src.width : Int) - 1)) a
  let d ← writeI d (2 * ((src.height : Int) - 1) * dest.stride + dest.stride + (2 * (src.width : Int) - 2)) a
  writeI d (2 * ((src.height : Int) - 1) * dest.stride + dest.stride + (2 * (src.width : Int) - 1)) a

/-- `nx_image_upsample_uc`/`_f32`, `src/nx_image.c:716-804`. The size of the destination is
computed in `int`. -/
def gUpsample {α : Type} (junk : Nat → α) (avg2 : α → α → α) (avg4 : α → α → α → α → α) (dest src : GImage α) :
    Res (GImage α) :=
  if 2 * src.width ≤ 2147483647 ∧ 2 * src.height ≤ 2147483647 then do
    let dest ← gResize junk dest (2 * src.width) (2 * src.height) (2 * src.width)
    let d ← forLoop (src.height - 1) (upRow avg2 avg4 src dest) 0 dest.data
    let d ← upLast avg2 src dest d
    pure { dest with data := d }
  else .ub

/-- `(a + (int)b) / 2` stored in an `uchar`, `src/nx_image.c:736`. -/
def avg2Uc (a b : Byte) : Byte := UInt8.ofNat ((a.toNat + b.toNat) / 2)

/-- The average of four, `src/nx_image.c:738`. -/
def avg4Uc (a b c d : Byte) : Byte := UInt8.ofNat ((a.toNat + b.toNat + c.toNat + d.toNat) / 4)

/-! ## Downsampling with smoothing -/

/-- The weighted sums of the smoothing downsampling for one sample type. -/
structure AaOps (α : Type) where
  /-- `2*s[2] + 12*s[1] + 11*s[0]` scaled, arguments `s[0]`, `s[1]`, `s[2]`. -/
  first : α → α → α → α
  /-- `s[-2] + s[2] + 6*(s[-1] + s[1]) + 11*s[0]` scaled, arguments from `s[-2]` to `s[2]`. -/
  inner : α → α → α → α → α → α
  /-- `s[-2] + 6*(s[-1] + s[1]) + 12*s[0]` scaled, arguments from `s[-2]` to `s[1]`. -/
  last : α → α → α → α → α

/-- First pixel of a row, `src/nx_image.c:834-835`. The reads are relative to `base` with
the distance `st` of neighbours; the same for columns, `:890-891`. -/
def aaFirst {α : Type} (ops : AaOps α) (src : List α) (base st : Nat) : Res α := do
  let c ← readAt src (base + 2 * st)
  let b ← readAt src (base + st)
  let a ← readAt src base
  pure (ops.first a b c)

/-- Inner pixel, `src/nx_image.c:837-840` and `:894-897`. -/
def aaInner {α : Type} (ops : AaOps α) (src : List α) (base st x : Nat) : Res α := do
  let a ← readI src (base + (2 * (x : Int) - 2) * st)
  let e ← readI src (base + (2 * (x : Int) + 2) * st)
  let b ← readI src (base + (2 * (x : Int) - 1) * st)
  let d ← readI src (base + (2 * (x : Int) + 1) * st)
  let c ← readI src (base + 2 * (x : Int) * st)
  pure (ops.inner a b c d e)

/-- Last pixel, `src/nx_image.c:842-853` and `:899-911`: `n` is the length of the source
and `m` that of the destination. -/
def aaLast {α : Type} (ops : AaOps α) (src : List α) (base st n m : Nat) : Res α := do
  let a ← readI src (base + (2 * (m : Int) - 4) * st)
  let b ← readI src (base + (2 * (m : Int) - 3) * st)
  let c ← readI src (base + (2 * (m : Int) - 2) * st)
  let d ← readI src (base + (2 * (m : Int) - 1) * st)
  if 2 * m = n then pure (ops.last a b c d)
  else do
    let e ← readI src (base + 2 * (m : Int) * st)
    pure (ops.inner a b c d e)

/-- Body of the loop over inner pixels. -/
def aaBody {α : Type} (ops : AaOps α) (src : List α) (sb ss db ds x : Nat) (d : List α) : Res (List α) := do
  let v ← aaInner ops src sb ss x
  writeAt d (db + x * ds) v

/-- One row or column: source from `sb` with distance `ss` and length `n`, destination from
`db` with distance `ds` and length `m`. `src/nx_image.c:832-853` and `:888-911`. -/
def aaLine {α : Type} (ops : AaOps α) (src : List α) (sb ss n db ds m : Nat) (d : List α) : Res (List α) := do
  let v ← aaFirst ops src sb ss
  let d ← writeAt d db v
  let d ← forLoop (m - 1) (aaBody ops src sb ss db ds) 1 d
  let v ← aaLast ops src sb ss n m
  writeI d (db + ((m : Int) - 1) * ds) v

/-- `nx_image_downsample_aa_x_uc`/`_f32`, `src/nx_image.c:819-859`. -/
def aaDownX {α : Type} (ops : AaOps α) (junk : Nat → α) (dest src : GImage α) : Res (GImage α) := do
  let dest ← gResize junk dest (src.width / 2) src.height 0
  let d ← forLoop dest.height (fun y d =>
    aaLine ops src.data (y * src.stride) 1 src.width (y * dest.stride) 1 dest.width d) 0 dest.data
  pure { dest with data := d }

/-- `nx_image_downsample_aa_y_uc`/`_f32`, `src/nx_image.c:873-918`. -/
def aaDownY {α : Type} (ops : AaOps α) (junk : Nat → α) (dest src : GImage α) : Res (GImage α) := do
  let dest ← gResize junk dest src.width (src.height / 2) 0
  let d ← forLoop dest.width (fun x d =>
    aaLine ops src.data x src.stride src.height x dest.stride dest.height d) 0 dest.data
  pure { dest with data := d }

/-- `sum * norm_f` stored in an `uchar`, `src/nx_image.c:830-840`: `norm_f`, the quotient
`1.0f/25`, is 10737418/2^28; the product is rounded to `float` and then truncated. -/
def aaScale (sum : Nat) : Byte := UInt8.ofNat (round24 (sum * 10737418) / 268435456)

/-- The sums for 8-bit samples, computed in `int`. -/
def aaUc : AaOps Byte where
  first a b c := aaScale (2 * c.toNat + 12 * b.toNat + 11 * a.toNat)
  inner a b c d e := aaScale (a.toNat + e.toNat + 6 * (b.toNat + d.toNat) + 11 * c.toNat)
  last a b c d := aaScale (a.toNat + 6 * (b.toNat + d.toNat) + 12 * c.toNat)

/-! ## Conversion to 8 bits -/

/-- Truncation toward zero. -/
def ratTrunc (q : Rat) : Int := if q < 0 then -((-q).floor) else q.floor

/-- Body of `nx_image_convert_f32_to_uc`, `src/nx_image.c:412-414`. A sample is a rational
number, `rnd` the rounding of a product; a value outside `int` is undefined. -/
def toUcBody (rnd : Rat → Rat) (v : Rat) : Res Byte :=
  let t := ratTrunc (rnd (v * 255))
  if InI32 t then .ok (UInt8.ofNat ((minI 0 (maxI 255 t)) % 256).toNat) else .ub

/-- `nx_image_convert_f32_to_uc`, `src/nx_image.c:399-417`. -/
def toUc (rnd : Rat → Rat) (junk : Nat → Byte) (dest : GImage Byte) (src : GImage Rat) : Res (GImage Byte) := do
  let dest ← gResize junk dest src.width src.height 0
  let d ← forLoop dest.height (fun y d => forLoop dest.width (fun x d => do
    let v ← readAt src.data (y * src.stride + x)
    let b ← toUcBody rnd v
    writeAt d (y * dest.stride + x) b) 0 d) 0 dest.data
  pure { dest with data := d }

/-- `nx_image_convert_uc_to_f32`, `src/nx_image.c:381-397`, with `rnd` the rounding of the
quotient. -/
def toF32 (rnd : Rat → Rat) (junk : Nat → Rat) (dest : GImage Rat) (src : GImage Byte) : Res (GImage Rat) := do
  let dest ← gResize junk dest src.width src.height 0
  let d ← forLoop dest.height (fun y d => forLoop dest.width (fun x d => do
    let v ← readAt src.data (y * src.stride + x)
    writeAt d (y * dest.stride + x) (rnd ((v.toNat : Rat) / 255))) 0 d) 0 dest.data
  pure { dest with data := d }

end Nx
