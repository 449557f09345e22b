import Verif.Model.MatchStats

/-!
# Model of the epipolar geometry, `src/nx_epipolar.c`, `include/virg/nexus/nx_epipolar.h`

Exact arithmetic as in `Model/Homography.lean`; the square root and the singular value decompositions are
parameters.
-/

namespace Nx

section
variable {K : Type} [Field K]

/-- The epipolar line of `x`, `include/virg/nexus/nx_epipolar.h:40-46`. -/
def epipolarLine (F : M3 K) (x : K × K) : V3 K where
  e0 := F.e0 * x.1 + F.e3 * x.2 + F.e6
  e1 := F.e1 * x.1 + F.e4 * x.2 + F.e7
  e2 := F.e2 * x.1 + F.e5 * x.2 + F.e8

/-- `nx_fundamental_epipolar_distance_fwd`, `include/virg/nexus/nx_epipolar.h:36-51`; `none` is the result of a division by
zero, an infinity or a NaN. -/
def epipolarDistance [LinearOrder K] (sqrt : K → K) (F : M3 K) (c : PMatch K) : Option K :=
  let l := epipolarLine F c.x
  let n := sqrt (l.e0 * l.e0 + l.e1 * l.e1)
  if n = 0 then none
  else
    let v := (l.e0 * c.xp.1 + l.e1 * c.xp.2 + l.e2) / n
    some (max v (-v))

/-- `d < inlier_tolerance`, which neither an infinity nor a NaN satisfies. -/
def lessThan [LinearOrder K] (d : Option K) (tol : K) : Bool :=
  match d with
  | some d => decide (d < tol)
  | none => false

/-- `nx_fundamental_mark_inliers`, `src/nx_epipolar.c:40-61`. -/
def fundMarkInliers [LinearOrder K] (sqrt : K → K) (F : M3 K) (n : Int) (corr : List (PMatch K)) (tol : K) :
    Res (List (PMatch K) × Nat) :=
  markLoop (fun c => lessThan (epipolarDistance sqrt F c) tol) n.toNat corr 0

/-- `nx_fundamental_constraints_from_corr`, `src/nx_epipolar.c:63-73`. -/
def fundConstraint (c : PMatch K) : Fin 9 → K :=
  let x := c.x.1
  let y := c.x.2
  let xp := c.xp.1
  let yp := c.xp.2
  ![x * xp, xp * y, xp, yp * x, yp * y, yp, x, y, 1]

/-- `nx_fundamental_fix_rank`, `src/nx_epipolar.c:94-115`: `F` afterwards and the returned singular value. `svd3` yields `U`,
the singular values and the transpose of `V`. -/
def fixRank (svd3 : M3 K → M3 K × V3 K × M3 K) (F : M3 K) : M3 K × K :=
  let (U, S, Vt) := svd3 F
  let Vt : M3 K :=
    { e0 := Vt.e0 * S.e0
      e3 := Vt.e3 * S.e0
      e6 := Vt.e6 * S.e0
      e1 := Vt.e1 * S.e1
      e4 := Vt.e4 * S.e1
      e7 := Vt.e7 * S.e1
      e2 := 0
      e5 := 0
      e8 := 0 }
  (dmat3Mul U Vt, S.e2)

/-- The calls at the end of the three estimations, e.g. `src/nx_epipolar.c:129-130`; `nx_fundamental_svd_solve` has the text of
`nx_homography_svd_solve`. -/
def fundSolve (svd : List (Fin 9 → K) → (Fin 9 → Fin 9 → K) × List K) (svd3 : M3 K → M3 K × V3 K × M3 K)
    (A : List (Fin 9 → K)) : Estimate K :=
  let r := svdSolve svd A
  ((fixRank svd3 r.1).1, r.2)

/-- The loop of `nx_fundamental_estimate_8pt`, `src/nx_epipolar.c:126-127`. -/
def fundRowsAt (corr : List (PMatch K)) : List Int → Res (List (Fin 9 → K))
  | [] => .ok []
  | i :: is => do
    let c ← readI corr i
    let r ← fundRowsAt corr is
    pure (fundConstraint c :: r)

/-- `nx_fundamental_estimate_8pt`, `src/nx_epipolar.c:117-134`. -/
def fundEstimate8pt (svd : List (Fin 9 → K) → (Fin 9 → Fin 9 → K) × List K) (svd3 : M3 K → M3 K × V3 K × M3 K)
    (ids : List Int) (corr : List (PMatch K)) : Res (Estimate K) := do
  let A ← fundRowsAt corr ids
  pure (fundSolve svd svd3 A)

/-- The loop of `nx_fundamental_estimate`, `src/nx_epipolar.c:151-152`. -/
def fundRows : Nat → List (PMatch K) → Res (List (Fin 9 → K))
  | 0, _ => .ok []
  | _ + 1, [] => .ub
  | n + 1, c :: cs => do
    let r ← fundRows n cs
    pure (fundConstraint c :: r)

/-- `nx_fundamental_estimate`, `src/nx_epipolar.c:136-162`. The size in bytes does not overflow. -/
def fundEstimate (svd : List (Fin 9 → K) → (Fin 9 → Fin 9 → K) × List K) (svd3 : M3 K → M3 K × V3 K × M3 K) (F : M3 K)
    (n : Int) (corr : List (PMatch K)) : Res (Estimate K) :=
  if n < 8 then .ok (F, .dblMax)
  else do
    let A ← fundRows n.toNat corr
    pure (fundSolve svd svd3 A)

/-- The loop of `nx_fundamental_estimate_inliers`, `src/nx_epipolar.c:180-184`. -/
def fundInlierRows : Nat → List (PMatch K) → Res (List (Fin 9 → K))
  | 0, _ => .ok []
  | _ + 1, [] => .ub
  | n + 1, c :: cs => do
    let r ← fundInlierRows n cs
    pure (if c.inlier then fundConstraint c :: r else r)

/-- `nx_fundamental_estimate_inliers`, `src/nx_epipolar.c:164-191`. -/
def fundEstimateInliers (svd : List (Fin 9 → K) → (Fin 9 → Fin 9 → K) × List K) (svd3 : M3 K → M3 K × V3 K × M3 K)
    (F : M3 K) (n : Int) (corr : List (PMatch K)) : Res (Estimate K) := do
  let k ← countInliers n.toNat corr 0
  if k < 8 then .ok (F, .dblMax)
  else do
    let A ← fundInlierRows n.toNat corr
    pure (fundSolve svd svd3 A)

/-- `nx_essential_from_fundamental`, `src/nx_epipolar.c:302-325`. -/
def essentialFromFundamental (F k kp : M3 K) : M3 K :=
  let Fk : M3 K :=
    { e0 := k.e0 * F.e0
      e1 := k.e0 * F.e1
      e2 := k.e0 * F.e2
      e3 := k.e3 * F.e0 + k.e4 * F.e3
      e4 := k.e3 * F.e1 + k.e4 * F.e4
      e5 := k.e3 * F.e2 + k.e4 * F.e5
      e6 := k.e6 * F.e0 + k.e7 * F.e3 + F.e6
      e7 := k.e6 * F.e1 + k.e7 * F.e4 + F.e7
      e8 := k.e6 * F.e2 + k.e7 * F.e5 + F.e8 }
  { e0 := kp.e0 * Fk.e0
    e3 := kp.e0 * Fk.e3
    e6 := kp.e0 * Fk.e6
    e1 := kp.e1 * Fk.e0 + kp.e4 * Fk.e1
    e4 := kp.e1 * Fk.e3 + kp.e4 * Fk.e4
    e7 := kp.e1 * Fk.e6 + kp.e4 * Fk.e7
    e2 := kp.e2 * Fk.e0 + kp.e5 * Fk.e1 + Fk.e2
    e5 := kp.e2 * Fk.e3 + kp.e5 * Fk.e4 + Fk.e5
    e8 := kp.e2 * Fk.e6 + kp.e5 * Fk.e7 + Fk.e8 }

/-- `nx_essential_from_Rt`, `src/nx_epipolar.c:329-340`. -/
def essentialFromRt (R : M3 K) (t : V3 K) : M3 K where
  e0 := -t.e2 * R.e1 + t.e1 * R.e2
  e1 := t.e2 * R.e0 - t.e0 * R.e2
  e2 := -t.e1 * R.e0 + t.e0 * R.e1
  e3 := -t.e2 * R.e4 + t.e1 * R.e5
  e4 := t.e2 * R.e3 - t.e0 * R.e5
  e5 := -t.e1 * R.e3 + t.e0 * R.e4
  e6 := -t.e2 * R.e7 + t.e1 * R.e8
  e7 := t.e2 * R.e6 - t.e0 * R.e8
  e8 := -t.e1 * R.e6 + t.e0 * R.e7

/-- The loops that change the sign of a matrix, `src/nx_epipolar.c:350-352` and `355-357`. -/
def fixSign [LinearOrder K] (A : M3 K) : M3 K :=
  if dmat3Det A < 0 then ⟨-A.e0, -A.e1, -A.e2, -A.e3, -A.e4, -A.e5, -A.e6, -A.e7, -A.e8⟩ else A

/-- `nx_essential_decompose_to_Rt`, `src/nx_epipolar.c:342-390`: the four pairs and the returned singular value. -/
def essentialDecompose [LinearOrder K] (svd3 : M3 K → M3 K × V3 K × M3 K) (E : M3 K) : List (M3 K × V3 K) × K :=
  let (U, S, Vt) := svd3 E
  let U := fixSign U
  let Vt := fixSign Vt
  let R0 : M3 K :=
    { e0 := U.e3 * Vt.e0 - U.e0 * Vt.e1 + U.e6 * Vt.e2
      e1 := U.e4 * Vt.e0 - U.e1 * Vt.e1 + U.e7 * Vt.e2
      e2 := U.e5 * Vt.e0 - U.e2 * Vt.e1 + U.e8 * Vt.e2
      e3 := U.e3 * Vt.e3 - U.e0 * Vt.e4 + U.e6 * Vt.e5
      e4 := U.e4 * Vt.e3 - U.e1 * Vt.e4 + U.e7 * Vt.e5
      e5 := U.e5 * Vt.e3 - U.e2 * Vt.e4 + U.e8 * Vt.e5
      e6 := U.e3 * Vt.e6 - U.e0 * Vt.e7 + U.e6 * Vt.e8
      e7 := U.e4 * Vt.e6 - U.e1 * Vt.e7 + U.e7 * Vt.e8
      e8 := U.e5 * Vt.e6 - U.e2 * Vt.e7 + U.e8 * Vt.e8 }
  let R2 : M3 K :=
    { e0 := -U.e3 * Vt.e0 + U.e0 * Vt.e1 + U.e6 * Vt.e2
      e1 := -U.e4 * Vt.e0 + U.e1 * Vt.e1 + U.e7 * Vt.e2
      e2 := -U.e5 * Vt.e0 + U.e2 * Vt.e1 + U.e8 * Vt.e2
      e3 := -U.e3 * Vt.e3 + U.e0 * Vt.e4 + U.e6 * Vt.e5
      e4 := -U.e4 * Vt.e3 + U.e1 * Vt.e4 + U.e7 * Vt.e5
      e5 := -U.e5 * Vt.e3 + U.e2 * Vt.e4 + U.e8 * Vt.e5
      e6 := -U.e3 * Vt.e6 + U.e0 * Vt.e7 + U.e6 * Vt.e8
      e7 := -U.e4 * Vt.e6 + U.e1 * Vt.e7 + U.e7 * Vt.e8
      e8 := -U.e5 * Vt.e6 + U.e2 * Vt.e7 + U.e8 * Vt.e8 }
  let t0 : V3 K := ⟨U.e6, U.e7, U.e8⟩
  let t1 : V3 K := ⟨-U.e6, -U.e7, -U.e8⟩
  ([(R0, t0), (R0, t1), (R2, t0), (R2, t1)], S.e2)

/-- `nx_signum`, `include/virg/nexus/nx_math.h:51-54`. -/
def signum [LinearOrder K] (d : K) : Int := (if d > 0 then 1 else 0) - (if d < 0 then 1 else 0)

/-- The vector `b`, `src/nx_epipolar.c:402-406`. -/
def baseVec (R : M3 K) (t : V3 K) : V3 K where
  e0 := -R.e0 * t.e0 - R.e1 * t.e1 - R.e2 * t.e2
  e1 := -R.e3 * t.e0 - R.e4 * t.e1 - R.e5 * t.e2
  e2 := -R.e6 * t.e0 - R.e7 * t.e1 - R.e8 * t.e2

/-- The body of the loop of `nx_epipolar_get_z_sign_sum`, `src/nx_epipolar.c:411-429`: `s` and `sp`. -/
def zSigns [LinearOrder K] (sqrt : K → K) (R : M3 K) (b : V3 K) (c : PMatch K) : Int × Int :=
  let u : V3 K := ⟨c.x.1, c.x.2, 1⟩
  let m := (dvec3ToUnit sqrt (dvec3Cross (dvec3Cross b u) b)).1
  let Rtv : V3 K :=
    { e0 := R.e0 * c.xp.1 + R.e1 * c.xp.2 + R.e2
      e1 := R.e3 * c.xp.1 + R.e4 * c.xp.2 + R.e5
      e2 := R.e6 * c.xp.1 + R.e7 * c.xp.2 + R.e8 }
  let w := dvec3Cross u Rtv
  let sp := signum (dmat3Det ⟨b.e0, b.e1, b.e2, m.e0, m.e1, m.e2, w.e0, w.e1, w.e2⟩)
  (sp * signum (dvec3Dot m Rtv), sp)

/-- The loop, with the two sums. -/
def zSignLoop [LinearOrder K] (sqrt : K → K) (R : M3 K) (b : V3 K) : Nat → List (PMatch K) → Int × Int → Res (Int × Int)
  | 0, _, acc => .ok acc
  | _ + 1, [], _ => .ub
  | n + 1, c :: cs, acc =>
    zSignLoop sqrt R b n cs (acc.1 + (zSigns sqrt R b c).1, acc.2 + (zSigns sqrt R b c).2)

/-- `nx_epipolar_get_z_sign_sum`, `src/nx_epipolar.c:392-433`. The sums do not overflow for less than 2³⁰ matches. -/
def zSignSum [LinearOrder K] (sqrt : K → K) (n : Int) (corr : List (PMatch K)) (R : M3 K) (t : V3 K) : Res Int := do
  let r ← zSignLoop sqrt R (baseVec R t) n.toNat corr (0, 0)
  pure (r.1 + r.2)

/-- The loop of `nx_epipolar_pick_best_Rt`, `src/nx_epipolar.c:455-462`, from index `i` on. -/
def pickLoop [LinearOrder K] (sqrt : K → K) (n : Int) (corr : List (PMatch K)) :
    List (M3 K × V3 K) → Nat → Nat × Int → Res (Nat × Int)
  | [], _, best => .ok best
  | p :: ps, i, best => do
    let sum ← zSignSum sqrt n corr p.1 p.2
    pickLoop sqrt n corr ps (i + 1) (if sum > best.2 then (i, sum) else best)

/-- `nx_epipolar_pick_best_Rt`, `src/nx_epipolar.c:435-468`, for four pairs: the index and the sum of signs. -/
def pickBestRt [LinearOrder K] (sqrt : K → K) (ps : List (M3 K × V3 K)) (n : Int) (corr : List (PMatch K)) :
    Res (Nat × Int) :=
  if n ≤ 0 then .fatal
  else
    match ps with
    | p :: ps => do
      let sum ← zSignSum sqrt n corr p.1 p.2
      pickLoop sqrt n corr ps 1 (0, sum)
    | [] => .ub

end

end Nx
