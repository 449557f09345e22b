import Verif.Model.Warp
import Verif.Model.Homography
import Verif.Model.VecMax
import Mathlib.Algebra.Field.Rat

/-!
# Model of the panorama builder: `tools/nx_panorama_builder.c`

Keypoints, matches and the result of the robust estimation for a pair of images are given; of the initialisation the estimation of
homographies, the choice of the reference, the shortest paths and the products of matrices are modelled. Lengths of paths are compared
and added as `double`: the addition is a parameter. Matrices and positions are exact. Numbers of inliers do not overflow `int`.
Messages on `stderr` and the block `visited`, which `nx_panorama_builder_find_shortest_paths` does not free, are not modelled.
-/

namespace Nx

/-! ## Shortest paths -/

/-- The arrays `next_node`, `node_val` and `visited`, `tools/nx_panorama_builder.c:240-251`. -/
structure PathState where
  next : List Int
  val : List Rat
  visited : List Bool
deriving DecidableEq, Repr

/-- One round of the search for the nearest node, `tools/nx_panorama_builder.c:255-262`; the pair is `current` and `current_val`. -/
def pathPick (s : PathState) (i : Nat) (c : Int × Rat) : Res (Int × Rat) := do
  let b ← readAt s.visited i
  let x ← readAt s.val i
  pure (if b = false ∧ x < c.2 then ((i : Int), x) else c)

/-- One round of the update of the neighbours, `tools/nx_panorama_builder.c:267-279`; `big` is `DBL_MAX` and `add` the addition of
`double`. -/
def pathRelax (add : Rat → Rat → Rat) (big : Rat) (n : Nat) (weights : List Rat) (cur : Int) (i : Nat) (s : PathState) :
    Res PathState := do
  let b ← readAt s.visited i
  if b then pure s
  else do
    let w ← readI weights (cur * n + i)
    let a ← readI s.val cur
    let x ← readAt s.val i
    let v := add a (if w < 0 then big else w)
    if v < x then do
      let val ← writeAt s.val i v
      let next ← writeAt s.next i cur
      pure { s with val := val, next := next }
    else pure s

/-- One round of the outer loop, `tools/nx_panorama_builder.c:254-280`. -/
def pathRound (add : Rat → Rat → Rat) (big : Rat) (n : Nat) (weights : List Rat) (_k : Nat) (s : PathState) : Res PathState := do
  let c ← forLoop n (pathPick s) 0 (-1, big)
  let visited ← writeI s.visited c.1 true
  forLoop n (pathRelax add big n weights c.1) 0 { s with visited := visited }

/-- `nx_panorama_builder_find_shortest_paths`, `tools/nx_panorama_builder.c:238-285`. Every round of the outer loop decreases
`n_not_visited`, which starts at `n`. -/
def shortestPaths (add : Rat → Rat → Rat) (big : Rat) (n : Nat) (weights : List Rat) (source : Int) : Res (List Int) := do
  let next ← writeI (List.replicate n (-1)) source source
  let val ← writeI (List.replicate n big) source 0
  let s ← forLoop n (pathRound add big n weights) 0 ⟨next, val, List.replicate n false⟩
  pure s.next

/-! ## Homographies of pairs -/

section
variable {K : Type} [Field K]

/-- `nx_panorama_builder_fit_initial_homography`, `tools/nx_panorama_builder.c:209-236`: the matrix afterwards, `none` for `NULL`, and
the returned value. `est` is the matrix and the value of `nx_homography_estimate_norm_ransac`. -/
def fitInitial (est : M3 K × Int) (_hp : Option (M3 K)) (nCorr : Int) : Option (M3 K) × Int :=
  let nInliers := if nCorr ≥ 20 then est.2 else 0
  if nInliers ≥ 20 then (some est.1, nInliers) else (none, 0)

/-- The arrays `H`, `total_n_corr` and `match_cost`, `tools/nx_panorama_builder.c:75-83`. -/
structure PanNet (K : Type) where
  H : List (Option (M3 K))
  total : List Int
  cost : List Rat

/-- The body of the loops over pairs, `tools/nx_panorama_builder.c:352-364`; `expCost ni` is `exp(-ni/1000.0)`. -/
def pairStep (est : Nat → Nat → M3 K × Int) (nCorr : Nat → Nat → Int) (expCost : Int → Rat) (n i j : Nat) (s : PanNet K) :
    Res (PanNet K) :=
  if i = j then .ok s
  else do
    let hp ← readAt s.H (j * n + i)
    let r := fitInitial (est i j) hp (nCorr i j)
    let H ← writeAt s.H (j * n + i) r.1
    let a ← readAt s.total i
    let total ← writeAt s.total i (a + r.2)
    let b ← readAt total j
    let total ← writeAt total j (b + r.2)
    let cost ← writeAt s.cost (j * n + i) (if r.2 > 0 then expCost r.2 else -1)
    pure ⟨H, total, cost⟩

/-- The loops over pairs, `tools/nx_panorama_builder.c:346-368`. -/
def pairLoop (est : Nat → Nat → M3 K × Int) (nCorr : Nat → Nat → Int) (expCost : Int → Rat) (n : Nat) (H : List (Option (M3 K))) :
    Res (PanNet K) :=
  forLoop n (fun i s => forLoop n (pairStep est nCorr expCost n i) 0 s) 0 ⟨H, List.replicate n 0, List.replicate (n * n) 0⟩

/-- The loop `while (node != next)`, `tools/nx_panorama_builder.c:402-413`, `none` if it is not over after `fuel` rounds; a missing
homography is an assertion. -/
def chainLoop (n : Nat) (H : List (Option (M3 K))) (nextNode : List Int) : Nat → Int → Int → M3 K → Res (Option (M3 K))
  | 0, _, _, _ => .ok none
  | fuel + 1, node, next, acc =>
    if node = next then .ok (some acc)
    else do
      let h ← readI H (next * n + node)
      match h with
      | none => .fatal
      | some h => do
        let nn ← readI nextNode next
        chainLoop n H nextNode fuel next nn (dmat3Mul h acc)

/-- One round of the loop over images, `tools/nx_panorama_builder.c:397-415`, with the matrices so far. -/
def chainStep (fuel n : Nat) (H : List (Option (M3 K))) (nextNode : List Int) (i : Nat) (s : Option (List (M3 K))) :
    Res (Option (List (M3 K))) :=
  match s with
  | none => .ok none
  | some l => do
    let next ← readAt nextNode i
    let r ← chainLoop n H nextNode fuel i next dmat3Eye
    pure (r.map fun m => l ++ [m])

/-- What the initialisation computes. -/
structure PanInit (K : Type) where
  net : PanNet K
  ref : Int
  next : List Int
  toRef : List (M3 K)

/-- The end of `nx_panorama_builder_init`, `tools/nx_panorama_builder.c:346-417`; `none` if a loop along a path is not over after `fuel`
rounds. -/
def panInit (add : Rat → Rat → Rat) (big : Rat) (est : Nat → Nat → M3 K × Int) (nCorr : Nat → Nat → Int) (expCost : Int → Rat)
    (fuel n : Nat) (H : List (Option (M3 K))) : Res (Option (PanInit K)) := do
  let net ← pairLoop est nCorr expCost n H
  let ref := ivecMaxIdx net.total
  let next ← shortestPaths add big n net.cost ref
  let r ← forLoop n (chainStep fuel n net.H next) 0 (some [])
  pure (r.map fun l => ⟨net, ref, next, l⟩)

end

/-! ## Composition -/

/-- `dims`, `tools/nx_panorama_builder.c:433-438`. -/
structure PanDims where
  minX : Int
  minY : Int
  maxX : Int
  maxY : Int
deriving DecidableEq, Repr

/-- One corner, `tools/nx_panorama_builder.c:450-454`; a quotient by zero cannot be converted to `int`. -/
def panCorner (H : M3 Rat) (d : PanDims) (p : Rat × Rat) : Res PanDims :=
  match (transferFwd H p).1 with
  | none => .ub
  | some q => do
    let x ← truncInt q.1
    let y ← truncInt q.2
    pure ⟨min d.minX x, min d.minY y, max d.maxX x, max d.maxY y⟩

/-- One image, `tools/nx_panorama_builder.c:440-456`. -/
def panImageDims (H : M3 Rat) (w h : Nat) (d : PanDims) : Res PanDims := do
  let d ← panCorner H d (0, 0)
  let d ← panCorner H d (w, 0)
  let d ← panCorner H d (w, h)
  panCorner H d (0, h)

/-- The loop over the images, `tools/nx_panorama_builder.c:440-456`. -/
def panDims : List (M3 Rat × GImage Byte) → PanDims → Res PanDims
  | [], d => .ok d
  | (H, img) :: l, d => do
    let d ← panImageDims H img.width img.height d
    panDims l d

/-- Moving the origin, `tools/nx_panorama_builder.c:466-474`. -/
def shiftOrigin (dx dy : Rat) (H : M3 Rat) : M3 Rat :=
  { H with
    e0 := H.e0 - dx * H.e2
    e3 := H.e3 - dx * H.e5
    e6 := H.e6 - dx * H.e8
    e1 := H.e1 - dy * H.e2
    e4 := H.e4 - dy * H.e5
    e7 := H.e7 - dy * H.e8 }

/-- `a - b` on `int`. -/
def subInt (a b : Int) : Res Int := if InI32 (a - b) then .ok (a - b) else .ub

/-- `nx_panorama_builder_create_reference`, `tools/nx_panorama_builder.c:429-481`: the resized panorama and `H_from_ref`. A negative size
cannot be allocated; there is at least one image. -/
def createReference (junk : Nat → Byte) (pan : GImage Byte) (imgs : List (M3 Rat × GImage Byte)) :
    Res (GImage Byte × List (M3 Rat × GImage Byte)) := do
  let d ← panDims imgs ⟨2147483647, 2147483647, -2147483648, -2147483648⟩
  let w ← subInt d.maxX d.minX
  let h ← subInt d.maxY d.minY
  if w < 0 ∨ h < 0 then .fatal
  else do
    let pan ← gResize junk pan w.toNat h.toNat 0
    pure (pan, imgs.map fun q => ((dmat3Inv (shiftOrigin d.minX d.minY q.1)).1, q.2))

/-- The test and the pixel, `tools/nx_panorama_builder.c:500-503`. -/
def compositeSample (img : GImage Byte) (xi yi : Int) (v : Byte) : Res Byte :=
  if xi ≥ 0 ∧ xi < img.width ∧ yi ≥ 0 ∧ yi < img.height then readI img.data (yi * img.stride + xi) else .ok v

/-- `nx_panorama_builder_composite_value`, `tools/nx_panorama_builder.c:483-507`, with the value `v` so far. -/
def compositeValue (x y : Nat) : List (M3 Rat × GImage Byte) → Byte → Res Byte
  | [], v => .ok v
  | (H, img) :: l, v =>
    match (transferFwd H ((x : Rat), (y : Rat))).1 with
    | none => .ub
    | some q => do
      let xi ← truncInt q.1
      let yi ← truncInt q.2
      let v ← compositeSample img xi yi v
      compositeValue x y l v

/-- One pixel of `nx_panorama_builder_composite`, `tools/nx_panorama_builder.c:522-523`. -/
def compositeBody (imgs : List (M3 Rat × GImage Byte)) (stride y x : Nat) (d : List Byte) : Res (List Byte) := do
  let v ← compositeValue x y imgs 0
  writeAt d (y * stride + x) v

/-- `nx_panorama_builder_composite`, `tools/nx_panorama_builder.c:509-526`. Setting the panorama to zero before is not modelled: all
its pixels are written. -/
def composite (junk : Nat → Byte) (pan : GImage Byte) (imgs : List (M3 Rat × GImage Byte)) : Res (GImage Byte) := do
  let r ← createReference junk pan imgs
  let d ← forLoop r.1.height (fun y d => forLoop r.1.width (compositeBody r.2 r.1.stride y) 0 d) 0 r.1.data
  pure { r.1 with data := d }

end Nx
