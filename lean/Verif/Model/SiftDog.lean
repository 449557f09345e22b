import Verif.Model.SiftDesc

/-!
# Model of the search for extrema in differences of Gaussians, `src/nx_sift_detector.c`

Exact arithmetic. Rows are addressed as in the code: an element is found from the beginning of the memory of
the image, whether or not its column is inside.
-/

namespace Nx

section
variable {K : Type} [Field K] [LinearOrder K]

/-- `row[x]` with `row = img->data.f32 + y * img->row_stride`. -/
def dogAt (img : GImage K) (x y : Int) : Res K := readI img.data (y * img.stride + x)

/-- The three images, by scale. -/
structure Dogs (K : Type) where
  m : GImage K
  c : GImage K
  p : GImage K

/-- The neighbours in the order of the comparisons, `src/nx_sift_detector.c:532-540`, as scale, column and row. -/
def dogNeighbours : List (Int × Int × Int) :=
  [(0, -1, 0), (0, 1, 0), (0, -1, -1), (0, 0, -1), (0, 1, -1), (0, -1, 1), (0, 0, 1), (0, 1, 1),
   (-1, -1, 0), (-1, 0, 0), (-1, 1, 0), (-1, -1, -1), (-1, 0, -1), (-1, 1, -1), (-1, -1, 1), (-1, 0, 1), (-1, 1, 1),
   (1, -1, 0), (1, 0, 0), (1, 1, 0), (1, -1, -1), (1, 0, -1), (1, 1, -1), (1, -1, 1), (1, 0, 1), (1, 1, 1)]

/-- The image of a scale. -/
def Dogs.at (d : Dogs K) (s : Int) : GImage K := if s = 0 then d.c else if s < 0 then d.m else d.p

/-- The comparisons with the neighbours until one fails. -/
def compareAll (d : Dogs K) (x y : Int) (cmp : K → Bool) : List (Int × Int × Int) → Res Bool
  | [] => .ok true
  | (s, dx, dy) :: rest => do
    let v ← dogAt (d.at s) (x + dx) (y + dy)
    if cmp v then compareAll d x y cmp rest else pure false

/-- `nx_sift_check_edge_threshold`, `src/nx_sift_detector.c:490-505`. -/
def edgeCheck (d : GImage K) (x y : Int) (r : K) : Res Bool := do
  let t ← dogAt d x (y - 1)
  let c ← dogAt d x y
  let b ← dogAt d x (y + 1)
  let l ← dogAt d (x - 1) y
  let rt ← dogAt d (x + 1) y
  let br ← dogAt d (x + 1) (y + 1)
  let bl ← dogAt d (x - 1) (y + 1)
  let tr ← dogAt d (x + 1) (y - 1)
  let tl ← dogAt d (x - 1) (y - 1)
  let ha := t - 2 * c + b
  let hb := l - 2 * c + rt
  let hc := ((br - bl) - (tr - tl)) / 4
  let det := ha * hb - hc * hc
  let trace := ha + hb
  pure (decide (det * (r + 1) * (r + 1) > r * trace * trace))

/-- The condition of the inner loop, `src/nx_sift_detector.c:530-552`. -/
def dogTest (d : Dogs K) (thr r : K) (x y : Int) : Res Bool := do
  let v ← dogAt d.c x y
  if |v| > 4 / 5 * thr then do
    let up ← if v > 0 then compareAll d x y (fun u => decide (v > u)) dogNeighbours else pure false
    let ext ← if up then pure true
      else if v < 0 then compareAll d x y (fun u => decide (v < u)) dogNeighbours else pure false
    if ext then edgeCheck d.c x y r else pure false
  else pure false

/-- `nx_sift_process_dog`, `src/nx_sift_detector.c:507-559`: the positions for which `nx_sift_interp_peak_location` is called, in this
order. That function does not change the images. `thr` is `peak_thr`. -/
def processDog (d : Dogs K) (B : Int) (thr r : K) : Res (List (Int × Int)) :=
  forLoop ((d.c.height : Int) - B - B).toNat (fun k out =>
    let y := B + k
    forLoop ((d.c.width : Int) + B - B).toNat (fun l out => do
      let x := B + l
      let c ← dogTest d thr r x y
      if c then pure (out ++ [(x, y)]) else pure out) 0 out) 0 []

end

end Nx
