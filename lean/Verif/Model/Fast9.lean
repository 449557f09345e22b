import Verif.Model.Fast9Tree
import Verif.Model.FastThreshold
import Verif.Model.Brief

/-!
# Model of FAST-9 corner detection and scoring, `src/fast/fast_9.c`

Of a keypoint only position and score are kept. Scores are integers: the code converts an
`int` of at most 255 to `float`, exactly.
-/

namespace Nx

/-- The factors in `make_offsets`, `src/fast/fast_9.c:2971-2986`: the offset to the pixel and
the number of rows. -/
def offsetTable : List (Int × Int) :=
  [(0, 3), (1, 3), (2, 2), (3, 1), (3, 0), (3, -1), (2, -2), (1, -3),
   (0, -3), (-1, -3), (-2, -2), (-3, -1), (-3, 0), (-3, 1), (-2, 2), (-1, 3)]

/-- `make_offsets`, `src/fast/fast_9.c:2969-2987`. -/
def makeOffsets (stride : Int) : List (Int × Int) → Res (List Int)
  | [] => .ok []
  | (dx, dy) :: l =>
    if InI32 (stride * dy) ∧ InI32 (dx + stride * dy) then do
      let r ← makeOffsets stride l
      pure ((dx + stride * dy) :: r)
    else .ub

/-- `p[pixel[k]]` where `p` points to element `base` of the image data. -/
def circleRead (data : Bytes) (base : Int) (pixel : List Int) (k : Nat) : Res Int := do
  let o ← readAt pixel k
  if 0 ≤ base + o then do
    let v ← readAt data (base + o).toNat
    pure (v.toNat : Int)
  else .ub

/-- Running the nested `if`s with `rd k` for `p[pixel[k]]`. -/
def FastTree.walk (rd : Nat → Res Int) (cb c_b : Int) : FastTree → Res Bool
  | .yes => .ok true
  | .no => .ok false
  | .bright i a b => do
    let v ← rd i
    if v > cb then a.walk rd cb c_b else b.walk rd cb c_b
  | .dark i a b => do
    let v ← rd i
    if v < c_b then a.walk rd cb c_b else b.walk rd cb c_b

/-- `p = im + y * stride + x` as an index; the product is computed in `int`. -/
def pixelBase (stride x y : Int) : Res Int := if InI32 (y * stride) then .ok (y * stride + x) else .ub

/-- `cb = *p + b` and `c_b = *p - b`. -/
def bounds (data : Bytes) (base b : Int) : Res (Int × Int) :=
  if 0 ≤ base then do
    let v ← readAt data base.toNat
    if InI32 (v.toNat + b) ∧ InI32 (v.toNat - b) then .ok (v.toNat + b, v.toNat - b) else .ub
  else .ub

/-- The test of the pixel `(x, y)`, `src/fast/fast_9.c:3011-5915`: whether the end of the `if`s
is reached without `continue`. -/
def fastTest (img : UcImage) (pixel : List Int) (b : Int) (x y : Nat) : Res Bool := do
  let base ← pixelBase img.stride x y
  let c ← bounds img.data base b
  fast9DetectTree.walk (circleRead img.data base pixel) c.1 c.2

/-- The loop over a row, `src/fast/fast_9.c:3008-5926`, from `x` on; `found` are the corners
stored so far. The first component tells whether the function has returned. `cap` is the size
of `ret_corners`, `rsize` the number given. -/
def fastRow (img : UcImage) (pixel : List Int) (b : Int) (cap : Nat) (rsize : Int) (y x : Nat)
    (found : List (Nat × Nat)) : Res (Bool × List (Nat × Nat)) :=
  if (x : Int) < img.width - 3 then do
    let t ← fastTest img pixel b x y
    if t then
      (if (found.length : Int) = rsize then pure (true, found)
      else if found.length < cap then fastRow img pixel b cap rsize y (x + 1) (found ++ [(x, y)])
      else .ub)
    else fastRow img pixel b cap rsize y (x + 1) found
  else pure (false, found)
termination_by img.width - x
decreasing_by all_goals omega

/-- The loop over the rows, `src/fast/fast_9.c:3007-5926`, from `y` on. -/
def fastRows (img : UcImage) (pixel : List Int) (b : Int) (cap : Nat) (rsize : Int) (y : Nat)
    (found : List (Nat × Nat)) : Res (List (Nat × Nat)) :=
  if (y : Int) < img.height - 3 then do
    let r ← fastRow img pixel b cap rsize y 3 found
    if r.1 then pure r.2 else fastRows img pixel b cap rsize (y + 1) r.2
  else pure found
termination_by img.height - y
decreasing_by all_goals omega

/-- `fast9_detect`, `src/fast/fast_9.c:2998-5929`: the positions stored. -/
def fast9Detect (img : UcImage) (b : Int) (cap : Nat) (rsize : Int) : Res (List (Nat × Nat)) := do
  let pixel ← makeOffsets img.stride offsetTable
  fastRows img pixel b cap rsize 3 []

/-- Whether the tree of `fast9_corner_score` ends in `is_a_corner`, with `cb` and `c_b`
computed for the threshold `b`, `src/fast/fast_9.c:46-2952`. -/
def scoreTest (data : Bytes) (base : Int) (pixel : List Int) (b : Int) : Res Bool := do
  let c ← bounds data base b
  fast9ScoreTree.walk (circleRead data base pixel) c.1 c.2

/-- The loop of `fast9_corner_score`, `src/fast/fast_9.c:45-2966`. `(x)/2` rounds towards 0.
Not having returned after `fuel` iterations is the outcome `ub`. -/
def scoreLoop (test : Int → Res Bool) : Nat → Int → Int → Int → Res Int
  | 0, _, _, _ => .ub
  | fuel + 1, bmin, bmax, b => do
    let t ← test b
    let bmin := if t then b else bmin
    let bmax := if t then bmax else b
    if bmin = bmax - 1 ∨ bmin = bmax then pure bmin
    else if InI32 (bmin + bmax) then scoreLoop test fuel bmin bmax ((bmin + bmax).tdiv 2)
    else .ub

/-- `fast9_corner_score`, `src/fast/fast_9.c:38-2967`, for the pixel at index `base`. -/
def cornerScore (fuel : Nat) (data : Bytes) (base : Int) (pixel : List Int) (bstart : Int) : Res Int :=
  if InI32 (255 + bstart) then
    scoreLoop (scoreTest data base pixel) fuel bstart 255 ((255 + bstart).tdiv 2)
  else .ub

/-- The loop of `fast9_score`, `src/fast/fast_9.c:2994-2995`: the scores stored. -/
def scoreCorners (fuel : Nat) (img : UcImage) (pixel : List Int) (b : Int) : List (Nat × Nat) → Res (List Int)
  | [] => .ok []
  | (x, y) :: l => do
    let base ← pixelBase img.stride x y
    let s ← cornerScore fuel img.data base pixel b
    let r ← scoreCorners fuel img pixel b l
    pure (s :: r)

/-- `fast9_score`, `src/fast/fast_9.c:2989-2996`. -/
def fast9Score (fuel : Nat) (img : UcImage) (b : Int) (corners : List (Nat × Nat)) : Res (List Int) := do
  let pixel ← makeOffsets img.stride offsetTable
  scoreCorners fuel img pixel b corners

end Nx
