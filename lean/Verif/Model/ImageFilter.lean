import Verif.Model.Sample
import Verif.Model.Filter

/-!
# Model of smoothing and of box filters for images, `src/nx_image.c:932-1185`

Samples are of a type `α` with a conversion `conv` to numbers and a conversion `store` back. For `float` both are the identity,
for `uchar` the value is truncated, which is undefined outside of 0 to 255. Arithmetic is exact. A destination `none` is the
source itself; otherwise the images and the buffer do not overlap. Radii are not negative.
-/

namespace Nx

/-- `(uchar)v` for a `float`, e.g. `src/nx_image.c:1000`. -/
def storeByte (v : Rat) : Res Byte :=
  let p := ratTrunc v
  if 0 ≤ p ∧ p ≤ 255 then .ok (UInt8.ofNat p.toNat) else .ub

/-- The value of an 8-bit sample. -/
def byteVal (b : Byte) : Rat := b.toNat

section
variable {α : Type} (conv : α → Rat) (store : Rat → Res α)

/-- One line is copied to the buffer and filtered, e.g. `src/nx_image.c:983-996`: `data` is the memory from the first sample of the
line on. -/
def filterLine (flt : List Rat → Res (List Rat)) (n nb : Nat) (buffer : List Rat) (data : List α) (stride : Nat) : Res (List Rat) := do
  let b ← copyToBuffer conv 0 n buffer data stride nb .repeat
  flt b

/-- The filtered line is written to the positions `pos i`, `src/nx_image.c:997-1008` and `1034-1045`. -/
def storeLine (n : Nat) (pos : Nat → Nat) (b : List Rat) (d : List α) : Res (List α) :=
  forLoop n (fun i d => do
    let v ← readAt b i
    let c ← store v
    writeAt d (pos i) c) 0 d

/-- The loop over the rows, `src/nx_image.c:982-1009` and `1072-1099`: buffer and destination; `src` is the memory of the source,
`none` if it is that of the destination. -/
def filterRows (flt : List Rat → Res (List Rat)) (w h nb : Nat) (src : Option (List α)) (sst dst : Nat)
    (s : List Rat × List α) : Res (List Rat × List α) :=
  forLoop h (fun y s => do
    let b ← filterLine conv flt w nb s.1 ((src.getD s.2).drop (y * sst)) 1
    let d ← storeLine store w (fun x => y * dst + x) b s.2
    pure (b, d)) 0 s

/-- The loop over the columns, `src/nx_image.c:1014-1046` and `1120-1153`. -/
def filterCols (flt : List Rat → Res (List Rat)) (w h nb : Nat) (src : Option (List α)) (sst dst : Nat)
    (s : List Rat × List α) : Res (List Rat × List α) :=
  forLoop w (fun x s => do
    let b ← filterLine conv flt h nb s.1 ((src.getD s.2).drop x) sst
    let d ← storeLine store h (fun y => x + y * dst) b s.2
    pure (b, d)) 0 s

/-- Memory of the function `nx_filter_buffer_alloc`, `src/nx_filter.c:253-264`, without alignment. -/
def filterBuffer (n nb : Nat) (junkB : Nat → Rat) : List Rat := (List.range (n + 2 * nb)).map junkB

/-- Destination of a filter, e.g. `src/nx_image.c:1062-1064`. -/
def filterDest (junk : Nat → α) (dest : Option (GImage α)) (src : GImage α) (stride : Nat) : Res (GImage α) :=
  match dest with
  | none => pure src
  | some d => gResize junk d src.width src.height stride

/-- Memory of the source if it differs from that of the destination. -/
def filterSrc (dest : Option (GImage α)) (src : GImage α) : Option (List α) :=
  match dest with
  | none => none
  | some _ => some src.data

/-- `nx_image_filter_box_x`, `src/nx_image.c:1055-1103`: buffer and destination. -/
def boxX (junk : Nat → α) (junkB : Nat → Rat) (dest : Option (GImage α)) (src : GImage α) (r : Nat) (buffer : Option (List Rat)) :
    Res (List Rat × GImage α) := do
  let d ← filterDest junk dest src 0
  let b := buffer.getD (filterBuffer src.width r junkB)
  let s ← filterRows conv store (fun b => convolveBox src.width b r) src.width src.height r (filterSrc dest src) src.stride d.stride
    (b, d.data)
  pure (s.1, { d with data := s.2 })

/-- `nx_image_filter_box_y`, `src/nx_image.c:1105-1158`. -/
def boxY (junk : Nat → α) (junkB : Nat → Rat) (dest : Option (GImage α)) (src : GImage α) (r : Nat) (buffer : Option (List Rat)) :
    Res (List Rat × GImage α) := do
  let d ← filterDest junk dest src 0
  let b := buffer.getD (filterBuffer src.height r junkB)
  let s ← filterCols conv store (fun b => convolveBox src.height b r) d.width src.height r (filterSrc dest src) src.stride d.stride
    (b, d.data)
  pure (s.1, { d with data := s.2 })

/-- `nx_image_filter_box`, `src/nx_image.c:1160-1185`. -/
def boxXY (junk : Nat → α) (junkB : Nat → Rat) (dest : Option (GImage α)) (src : GImage α) (rx ry : Nat)
    (buffer : Option (List Rat)) : Res (List Rat × GImage α) := do
  let d ← filterDest junk dest src 0
  let b := buffer.getD (filterBuffer (max src.width src.height) (max rx ry) junkB)
  let s ← boxX conv store junk junkB (dest.map (fun _ => d)) src rx (some b)
  boxY conv store junk junkB none s.2 ry (some s.1)

/-- `nx_image_smooth`, `src/nx_image.c:946-1053`: the memory of the kernel starts as `junkB`, `tx` and `ty` are the truncated values
`2 * kernel_truncation_factor * sigma + 1`, and `gx` and `gy` the values of the Gaussian functions. -/
def smooth (junk : Nat → α) (junkB : Nat → Rat) (dest : Option (GImage α)) (src : GImage α) (tx ty : Int) (gx gy : Nat → Rat)
    (buffer : Option (List Rat)) : Res (List Rat × GImage α) := do
  let d ← filterDest junk dest src src.width
  let nkx := (kernelSize tx).toNat
  let nky := (kernelSize ty).toNat
  let b := buffer.getD (filterBuffer (max src.width src.height) (max nkx nky / 2) junkB)
  let kernel := (List.range (max nkx nky / 2 + 1)).map junkB
  let kernel ← kernelSym gx (nkx / 2 + 1) kernel
  let s ← filterRows conv store (fun b => convolveSym src.width b (nkx / 2 + 1) kernel) src.width src.height (nkx / 2)
    (filterSrc dest src) src.stride d.stride (b, d.data)
  let kernel ← kernelSym gy (nky / 2 + 1) kernel
  let s ← filterCols conv store (fun b => convolveSym d.height b (nky / 2 + 1) kernel) d.width d.height (nky / 2) none d.stride d.stride s
  pure (s.1, { d with data := s.2 })

end

end Nx
