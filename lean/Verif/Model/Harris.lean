import Verif.Model.ImageArith
import Verif.Model.ImageFilter

/-!
# Model of the Harris corner detector, `src/nx_harris_detector.c` and `src/vg_harris_detector.cc`

Samples of type `float` are rational numbers with exact arithmetic. The image and the images of the detector are different images.
A window is given by the truncated value `2 * 3.0f * sigma_win + 1` and the values of the Gaussian function; no window stands for
`sigma_win <= 0`.
-/

namespace Nx

/-- The memory of the three images of products. -/
structure Products where
  x2 : List Rat
  y2 : List Rat
  xy : List Rat
deriving DecidableEq, Repr

/-- Body of the loop over the pixels, `src/nx_harris_detector.c:55-57`; the strides are those of the three images. -/
def productBody (s0 s1 s2 y x : Nat) (p : Products) : Res Products := do
  let a ← readAt p.x2 (y * s0 + x)
  let b ← readAt p.y2 (y * s1 + x)
  let xy ← writeAt p.xy (y * s2 + x) (a * b)
  let x2 ← writeAt p.x2 (y * s0 + x) (a * a)
  let y2 ← writeAt p.y2 (y * s1 + x) (b * b)
  pure ⟨x2, y2, xy⟩

/-- `if (!dimg[i]) dimg[i] = nx_image_alloc();`, `src/nx_harris_detector.c:42-44`. -/
def orAlloc (i : Option (GImage Rat)) : GImage Rat := i.getD ⟨0, 0, 0, []⟩

/-- `nx_harris_deriv_images`, `src/nx_harris_detector.c:34-73`. The divisor of the derivatives of an image of type `uchar` is 255. -/
def harrisDeriv (junk junkB : Nat → Rat) (dimg : Option (GImage Rat) × Option (GImage Rat) × Option (GImage Rat))
    (img : GImage Byte) (window : Option (Int × (Nat → Rat))) : Res (GImage Rat × GImage Rat × GImage Rat) := do
  let d0 ← derivX byteVal 255 junk (orAlloc dimg.1) img
  let d1 ← derivY byteVal 255 junk (orAlloc dimg.2.1) img
  let d2 ← gResize junk (orAlloc dimg.2.2) d0.width d0.height 0
  let p ← forLoop img.height (fun y p => forLoop img.width (productBody d0.stride d1.stride d2.stride y) 0 p) 0
    ⟨d0.data, d1.data, d2.data⟩
  let d0 := { d0 with data := p.x2 }
  let d1 := { d1 with data := p.y2 }
  let d2 := { d2 with data := p.xy }
  match window with
  | none => pure (d0, d1, d2)
  | some (t, g) => do
    let b := filterBuffer (max img.width img.height) ((kernelSize t).toNat / 2) junkB
    let r0 ← smooth id .ok junk junkB none d0 t t g g (some b)
    let r1 ← smooth id .ok junk junkB none d1 t t g g (some r0.1)
    let r2 ← smooth id .ok junk junkB none d2 t t g g (some r1.1)
    pure (r0.2, r1.2, r2.2)

/-- Body of the loop over the pixels, `src/nx_harris_detector.c:94-96`. -/
def scoreBody (d0 d1 d2 : GImage Rat) (k : Rat) (st y x : Nat) (s : List Rat) : Res (List Rat) := do
  let a ← readAt d0.data (y * d0.stride + x)
  let b ← readAt d1.data (y * d1.stride + x)
  let c ← readAt d2.data (y * d2.stride + x)
  let det := a * b - c * c
  let tr := a + b
  writeAt s (y * st + x) (det - k * tr * tr)

/-- `nx_harris_score_image`, `src/nx_harris_detector.c:75-99`. -/
def harrisScore (junk : Nat → Rat) (simg d0 d1 d2 : GImage Rat) (k : Rat) : Res (GImage Rat) := do
  let s ← gResize junk simg d0.width d0.height 0
  let d ← forLoop d0.height (fun y d => forLoop d0.width (scoreBody d0 d1 d2 k s.stride y) 0 d) 0 s.data
  pure { s with data := d }

/-- `struct NXKeypoint`, `include/virg/nexus/nx_keypoint.h:36-52`, with numbers. -/
structure NumKey where
  x : Nat
  y : Nat
  xs : Rat
  ys : Rat
  level : Int
  scale : Rat
  sigma : Rat
  score : Rat
  ori : Rat
  id : Nat
deriving DecidableEq, Repr

/-- Comparison of a score with others, which are read one after the other until one is not less, `src/nx_harris_detector.c:125-129`. -/
def aboveAll (d : List Rat) (c : Rat) : List Nat → Res Bool
  | [] => .ok true
  | i :: is => do
    let v ← readAt d i
    if c > v then aboveAll d c is else pure false

/-- Condition for a keypoint, `src/nx_harris_detector.c:124-129`. -/
def harrisPeak (simg : GImage Rat) (thr : Rat) (x y : Nat) : Res Bool := do
  let c ← readAt simg.data (y * simg.stride + x)
  if c > thr then
    aboveAll simg.data c [y * simg.stride + (x - 1), y * simg.stride + (x + 1),
      (y - 1) * simg.stride + (x - 1), (y - 1) * simg.stride + x, (y - 1) * simg.stride + (x + 1),
      (y + 1) * simg.stride + (x - 1), (y + 1) * simg.stride + x, (y + 1) * simg.stride + (x + 1)]
  else pure false

/-- Variables of the detection: number of keypoints, the array, and whether the function has returned. -/
structure Detection where
  n : Nat
  keys : List NumKey
  stop : Bool
deriving DecidableEq, Repr

/-- Body of the loop over the pixels, `src/nx_harris_detector.c:124-145`. After the return nothing happens any more. -/
def detectBody (simg : GImage Rat) (thr : Rat) (nmax : Nat) (y x : Nat) (s : Detection) : Res Detection :=
  if s.stop then .ok s
  else do
    let p ← harrisPeak simg thr x y
    if p then do
      let v ← readAt simg.data (y * simg.stride + x)
      let keys ← writeAt s.keys s.n ⟨x, y, x, y, 0, 1, 1, v, 0, s.n⟩
      pure ⟨s.n + 1, keys, decide (s.n + 1 ≥ nmax)⟩
    else pure s

/-- `nx_harris_detect_keypoints`, `src/nx_harris_detector.c:101-150`: the number of keypoints and the array. -/
def harrisDetect (nmax : Int) (keys : List NumKey) (simg : GImage Rat) (thr : Rat) : Res (Nat × List NumKey) :=
  if nmax < 1 then .ok (0, keys)
  else do
    let s ← forLoop (simg.height - 2) (fun y s => forLoop (simg.width - 2) (detectBody simg thr nmax.toNat y) 2 s) 2 ⟨0, keys, false⟩
    pure (s.n, s.keys)

/-! ## The class `VGHarrisDetector` -/

/-- `VGHarrisDetector::adapt_threshold`, `src/vg_harris_detector.cc:45-66`. -/
def harrisAdapt (thr : Rat) (n max : Int) : Rat :=
  if (n : Rat) > 17 / 10 * max then thr * 4
  else if (n : Rat) > 14 / 10 * max then thr * (19 / 10)
  else if (n : Rat) > 11 / 10 * max then thr * (12 / 10)
  else if n > max then thr * (102 / 100)
  else if (n : Rat) < 5 / 10 * max then thr * (25 / 100)
  else if (n : Rat) < 9 / 10 * max then thr * (6 / 10)
  else if (n : Rat) < 95 / 100 * max then thr * (9 / 10)
  else if (n : Rat) < 99 / 100 * max then thr * (97 / 100)
  else thr

/-- Members `m_dimg`, `m_simg` and `m_threshold` of the class, `include/virg/nexus/vg_harris_detector.hpp:57-60`. -/
structure HarrisDetector where
  dimg : GImage Rat × GImage Rat × GImage Rat
  simg : GImage Rat
  threshold : Rat
deriving DecidableEq, Repr

/-- The parameters: the window, the factor `k`, and what fresh memory contains. -/
structure HarrisParam where
  window : Option (Int × (Nat → Rat))
  k : Rat
  junk : Nat → Rat
  junkB : Nat → Rat
  /-- What `std::vector::resize` puts into new places. -/
  blank : NumKey

/-- `update_score_image`, `src/vg_harris_detector.cc:68-75`. -/
def updateScore (p : HarrisParam) (det : HarrisDetector) (img : GImage Byte) : Res HarrisDetector := do
  let d ← harrisDeriv p.junk p.junkB (some det.dimg.1, some det.dimg.2.1, some det.dimg.2.2) img p.window
  let s ← harrisScore p.junk det.simg d.1 d.2.1 d.2.2 p.k
  pure { det with dimg := d, simg := s }

/-- `std::vector::resize`. -/
def vecResize {α : Type} (blank : α) (v : List α) (n : Nat) : List α := v.take n ++ List.replicate (n - v.length) blank

/-- `VGHarrisDetector::detect`, `src/vg_harris_detector.cc:77-101`; the assertion and the product `2*max_n_keys` in `int`. -/
def vgDetect (p : HarrisParam) (det : HarrisDetector) (img : GImage Byte) (keys : List NumKey) (max : Nat) (adapt : Bool) :
    Res (HarrisDetector × List NumKey × Nat) :=
  if max > 0 then do
    let det ← updateScore p det img
    if 2 * max ≤ 2147483647 then do
      let r ← harrisDetect (2 * max) (vecResize p.blank keys (2 * max)) det.simg det.threshold
      let det := if adapt then { det with threshold := harrisAdapt det.threshold r.1 max } else det
      let n := if r.1 > max then max else r.1
      pure (det, vecResize p.blank r.2 n, n)
    else .ub
  else .fatal

/-- A level of a pyramid: image, `level_scale`, `level_sigma`. -/
structure HarrisLevel where
  img : GImage Byte
  scale : Rat
  sigma : Rat
deriving DecidableEq, Repr

/-- Body of the loop over the new keypoints, `src/vg_harris_detector.cc:125-131`. -/
def relabel (level : Nat) (l : HarrisLevel) (i : Nat) (keys : List NumKey) : Res (List NumKey) := do
  let q ← readAt keys i
  writeAt keys i { q with level := level, scale := l.scale, sigma := l.sigma, id := i }

/-- The loop of `detect_pyr`, `src/vg_harris_detector.cc:115-136`: `nl` levels are left, `total` keypoints found, and there is room for
`room` more. `&keys[k]` is the end of the array from position `k`. -/
def pyrLoop (p : HarrisParam) (pyr : List HarrisLevel) (nl : Nat) (det : HarrisDetector) (keys : List NumKey) (total room : Nat) :
    Res (HarrisDetector × List NumKey × Nat) :=
  match nl with
  | 0 => .ok (det, keys, total)
  | level + 1 =>
    if room > 0 then do
      let l ← readAt pyr level
      let det ← updateScore p det l.img
      let r ← harrisDetect room (keys.drop total) det.simg det.threshold
      let keys := keys.take total ++ r.2
      let keys ← forLoop (total + r.1) (relabel level l) total keys
      pyrLoop p pyr level det keys (total + r.1) (room - r.1)
    else .ok (det, keys, total)

/-- `VGHarrisDetector::detect_pyr`, `src/vg_harris_detector.cc:103-150`. -/
def vgDetectPyr (p : HarrisParam) (det : HarrisDetector) (pyr : List HarrisLevel) (keys : List NumKey) (nl max : Nat)
    (adapt : Bool) : Res (HarrisDetector × List NumKey × Nat) :=
  if nl > 0 ∧ pyr.length ≥ nl ∧ max > 0 then
    if 2 * max ≤ 2147483647 then do
      let r ← pyrLoop p pyr nl det (vecResize p.blank keys (2 * max)) 0 (2 * max)
      let det := if adapt then { r.1 with threshold := harrisAdapt r.1.threshold r.2.2 max } else r.1
      let n := if r.2.2 > max then max else r.2.2
      pure (det, vecResize p.blank r.2.1 n, n)
    else .ub
  else .fatal

end Nx
