import Verif.Core

/-!
# Model of non-maximum suppression, `src/fast/fast_nonmax.c`

Scores are integers (the FAST scores are; the code converts the `float` score of the
corner considered to `int`). Only position and score of a keypoint matter. The
allocation of `row_start` succeeds.
-/

namespace Nx

/-- `struct NXKeypoint` as far as used here. -/
structure Corner where
  x : Int
  y : Int
  score : Int
deriving DecidableEq, Repr

/-- `row_start[y]` for reading. -/
def rowAt (rs : List Int) (y : Int) : Res Int := if 0 ≤ y then readAt rs y.toNat else .ub

/-- The loop filling `row_start`, `src/fast/fast_nonmax.c:66-72`, from corner `i` on. -/
def rowStartLoop : List Corner → Nat → Int → List Int → Res (List Int)
  | [], _, _, rs => .ok rs
  | c :: cs, i, prev, rs =>
    if c.y ≠ prev then
      (if 0 ≤ c.y then do
        let rs ← writeAt rs c.y.toNat i
        rowStartLoop cs (i + 1) c.y rs
      else .ub)
    else rowStartLoop cs (i + 1) prev rs

/-- The check of the left neighbour, `src/fast/fast_nonmax.c:83-85`. -/
def nmLeft (cs : List Corner) (i : Nat) (pos : Corner) : Res Bool :=
  if i > 0 then do
    let c ← readAt cs (i - 1)
    pure (decide (c.x = pos.x - 1 ∧ c.y = pos.y ∧ c.score ≥ pos.score))
  else .ok false

/-- The check of the right neighbour, `src/fast/fast_nonmax.c:88-90`. -/
def nmRight (cs : List Corner) (i : Nat) (pos : Corner) : Res Bool :=
  if (i : Int) < (cs.length : Int) - 1 then do
    let c ← readAt cs (i + 1)
    pure (decide (c.x = pos.x + 1 ∧ c.y = pos.y ∧ c.score ≥ pos.score))
  else .ok false

/-- The loop advancing `point_above`, `src/fast/fast_nonmax.c:102-103`. -/
def skipAbove (cs : List Corner) (pos : Corner) (pa : Nat) : Res Nat :=
  if h : pa < cs.length then
    if cs[pa].y < pos.y ∧ cs[pa].x < pos.x - 1 then skipAbove cs pos (pa + 1) else .ok pa
  else .ub
termination_by cs.length - pa

/-- The loop looking at the corners above, `src/fast/fast_nonmax.c:106-111`; `true`
is the jump to `cont`. -/
def scanAbove (cs : List Corner) (pos : Corner) (j : Nat) : Res Bool :=
  if h : j < cs.length then
    if cs[j].y < pos.y ∧ cs[j].x ≤ pos.x + 1 then
      if (cs[j].x = pos.x - 1 ∨ cs[j].x = pos.x ∨ cs[j].x = pos.x + 1) ∧ cs[j].score ≥ pos.score then .ok true
      else scanAbove cs pos (j + 1)
    else .ok false
  else .ub
termination_by cs.length - j

/-- Making `point_above` point into the row above, `src/fast/fast_nonmax.c:97-98`. -/
def resetAbove (cs : List Corner) (pos : Corner) (pa : Nat) (start : Int) : Res Nat := do
  let c ← readAt cs pa
  pure (if c.y < pos.y - 1 then start.toNat else pa)

/-- The check above, `src/fast/fast_nonmax.c:93-113`: whether the corner is
suppressed, and `point_above`. -/
def nmAbove (cs : List Corner) (rs : List Int) (pos : Corner) (pa : Nat) : Res (Bool × Nat) :=
  if pos.y ≠ 0 then do
    let start ← rowAt rs (pos.y - 1)
    if start ≠ -1 then do
      let pa ← resetAbove cs pos pa start
      let pa ← skipAbove cs pos pa
      let b ← scanAbove cs pos pa
      pure (b, pa)
    else pure (false, pa)
  else .ok (false, pa)

/-- The loop advancing `point_below`, `src/fast/fast_nonmax.c:123-124`. -/
def skipBelow (cs : List Corner) (pos : Corner) (pb : Nat) : Nat :=
  if h : pb < cs.length then
    if cs[pb].y = pos.y + 1 ∧ cs[pb].x < pos.x - 1 then skipBelow cs pos (pb + 1) else pb
  else pb
termination_by cs.length - pb

/-- The loop looking at the corners below, `src/fast/fast_nonmax.c:126-131`. -/
def scanBelow (cs : List Corner) (pos : Corner) (j : Nat) : Bool :=
  if h : j < cs.length then
    if cs[j].y = pos.y + 1 ∧ cs[j].x ≤ pos.x + 1 then
      if (cs[j].x = pos.x - 1 ∨ cs[j].x = pos.x ∨ cs[j].x = pos.x + 1) ∧ cs[j].score ≥ pos.score then true
      else scanBelow cs pos (j + 1)
    else false
  else false
termination_by cs.length - j

/-- `point_below` made to point into the row below, `src/fast/fast_nonmax.c:118-119`. -/
def resetBelow (cs : List Corner) (pos : Corner) (pb : Nat) (start : Int) : Res Nat := do
  let c ← readAt cs pb
  pure (if c.y < pos.y + 1 then start.toNat else pb)

/-- The check below, `src/fast/fast_nonmax.c:116-132`. -/
def nmBelow (cs : List Corner) (rs : List Int) (lastRow : Int) (pos : Corner) (pb : Nat) : Res (Bool × Nat) :=
  if pos.y ≠ lastRow then do
    let start ← rowAt rs (pos.y + 1)
    if start ≠ -1 ∧ pb < cs.length then do
      let pb ← resetBelow cs pos pb start
      let pb := skipBelow cs pos pb
      pure (scanBelow cs pos pb, pb)
    else pure (false, pb)
  else .ok (false, pb)

/-- The body of the main loop, `src/fast/fast_nonmax.c:79-132`: whether the corner is
kept, `point_above` and `point_below`. -/
def nmBody (cs : List Corner) (rs : List Int) (lastRow : Int) (i : Nat) (pa pb : Nat) : Res (Bool × Nat × Nat) := do
  let pos ← readAt cs i
  let l ← nmLeft cs i pos
  if l then pure (false, pa, pb)
  else do
    let r ← nmRight cs i pos
    if r then pure (false, pa, pb)
    else do
      let a ← nmAbove cs rs pos pa
      if a.1 then pure (false, a.2, pb)
      else do
        let b ← nmBelow cs rs lastRow pos pb
        pure (!b.1, a.2, b.2)

/-- The main loop, `src/fast/fast_nonmax.c:77-139`, from corner `i` on, `room` more
corners may be returned: the corners returned. -/
def nmLoop (cs : List Corner) (rs : List Int) (lastRow : Int) (i pa pb room : Nat) : Res (List Corner) :=
  if i < cs.length then do
    let pos ← readAt cs i
    let r ← nmBody cs rs lastRow i pa pb
    if r.1 then
      (if room = 1 then pure [pos]
      else do
        let out ← nmLoop cs rs lastRow (i + 1) r.2.1 r.2.2 (room - 1)
        pure (pos :: out))
    else nmLoop cs rs lastRow (i + 1) r.2.1 r.2.2 room
  else pure []
termination_by cs.length - i

/-- `fast_nonmax_suppression`, `src/fast/fast_nonmax.c:37-143`: the corners returned,
at most `limit`. -/
def nonmax (cs : List Corner) (limit : Int) : Res (List Corner) :=
  if (cs.length : Int) < 1 ∨ limit ≤ 0 then .ok []
  else do
    let last ← readAt cs (cs.length - 1)
    let rs ← rowStartLoop cs 0 (-1) (List.replicate (last.y + 1).toNat (-1))
    nmLoop cs rs last.y 0 0 0 limit.toNat

end Nx
