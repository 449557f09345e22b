import Verif.Model.Homography

/-!
# Model of the pinhole camera: `src/nx_pinhole.c`

Exact arithmetic as in `Model/Homography.lean`; a coordinate that the code makes infinite or NaN by a division by zero is
`none`. Arrays of points are lists of points. `DBL_MAX` at the start of the minimum is `none`, as if it were infinite.
-/

namespace Nx

section
variable {K : Type} [Field K]

/-- `nx_pinhole_projection_from_krt`, `src/nx_pinhole.c:36-53`; a null pointer is `none`. -/
def projectionFromKrt (k R : Option (M3 K)) (t : Option (V3 K)) : M34 K :=
  let Kv := k.getD ⟨1, 0, 0, 0, 1, 0, 0, 0, 1⟩
  let Rv := R.getD ⟨1, 0, 0, 0, 1, 0, 0, 0, 1⟩
  let tv := t.getD ⟨0, 0, 0⟩
  let A := dmat3MulUa Kv Rv
  ⟨A.e0, A.e1, A.e2, A.e3, A.e4, A.e5, A.e6, A.e7, A.e8, Kv.e0 * tv.e0 + Kv.e3 * tv.e1 + Kv.e6 * tv.e2,
    Kv.e4 * tv.e1 + Kv.e7 * tv.e2, tv.e2⟩

/-- The variable `s`, `src/nx_pinhole.c:66`. -/
def pinholeScale (P : M34 K) (X : V3 K) : K := P.e2 * X.e0 + P.e5 * X.e1 + P.e8 * X.e2 + P.e11

/-- `src/nx_pinhole.c:71-73`. -/
def pinholePoint [DecidableEq K] (P : M34 K) (X : V3 K) : Option (K × K) :=
  if pinholeScale P X = 0 then none
  else
    let inv_s := 1 / pinholeScale P X
    some ((P.e0 * X.e0 + P.e3 * X.e1 + P.e6 * X.e2 + P.e9) * inv_s,
      (P.e1 * X.e0 + P.e4 * X.e1 + P.e7 * X.e2 + P.e10) * inv_s)

/-- `nx_min_d(min_abs_s, fabs(s))`, `src/nx_pinhole.c:67`. -/
def minAbs [LinearOrder K] (m : Option K) (s : K) : Option K :=
  match m with
  | none => some (max s (-s))
  | some m => some (if m < max s (-s) then m else max s (-s))

/-- The loop of `nx_pinhole_project`, `src/nx_pinhole.c:63-74`. -/
def projectLoop [LinearOrder K] (P : M34 K) :
    Nat → List (V3 K) → List (Option (K × K)) → Option K → Res (List (Option (K × K)) × Option K)
  | 0, _, out, m => .ok (out, m)
  | n + 1, X :: Xs, _ :: out, m =>
    (projectLoop P n Xs out (minAbs m (pinholeScale P X))).bind fun r => .ok (pinholePoint P X :: r.1, r.2)
  | _ + 1, _, _, _ => .ub

/-- `nx_pinhole_project`, `src/nx_pinhole.c:55-79`: the array `x` and the returned value. -/
def pinholeProject [LinearOrder K] (P : M34 K) (n : Int) (X : List (V3 K)) (out : List (Option (K × K))) :
    Res (List (Option (K × K)) × K) :=
  if n > 0 then
    (projectLoop P n.toNat X out none).bind fun r =>
      match r.2 with
      | some m => if m > 0 then .ok (r.1, m) else .fatal
      | none => .fatal
  else .fatal

/-- A point with homogeneous coordinates in space, `float Xh[4]`. -/
structure V4 (K : Type) where
  e0 : K
  e1 : K
  e2 : K
  e3 : K
deriving DecidableEq, Repr

/-- The body of the loop of `nx_pinhole_project_h`, `src/nx_pinhole.c:89-91`. -/
def pinholePointH (P : M34 K) (X : V4 K) : V3 K where
  e0 := P.e0 * X.e0 + P.e3 * X.e1 + P.e6 * X.e2 + P.e9 * X.e3
  e1 := P.e1 * X.e0 + P.e4 * X.e1 + P.e7 * X.e2 + P.e10 * X.e3
  e2 := P.e2 * X.e0 + P.e5 * X.e1 + P.e8 * X.e2 + P.e11 * X.e3

/-- The loop of `nx_pinhole_project_h`, `src/nx_pinhole.c:88-92`. -/
def projectHLoop (P : M34 K) : Nat → List (V4 K) → List (V3 K) → Res (List (V3 K))
  | 0, _, out => .ok out
  | n + 1, X :: Xs, _ :: out => (projectHLoop P n Xs out).bind fun r => .ok (pinholePointH P X :: r)
  | _ + 1, _, _ => .ub

/-- `nx_pinhole_project_h`, `src/nx_pinhole.c:81-93`. -/
def pinholeProjectH (P : M34 K) (n : Int) (X : List (V4 K)) (out : List (V3 K)) : Res (List (V3 K)) :=
  if n > 0 then projectHLoop P n.toNat X out else .fatal

/-- `nx_triangulation_constraints_from_corr`, `src/nx_pinhole.c:95-125`: the four columns of `A`. -/
def triangulationColumns (c : PMatch K) (P0 P1 : M34 K) : List (Fin 4 → K) :=
  [![c.x.1 * P0.e2 - P0.e0, c.x.1 * P0.e5 - P0.e3, c.x.1 * P0.e8 - P0.e6, c.x.1 * P0.e11 - P0.e9],
    ![c.x.2 * P0.e2 - P0.e1, c.x.2 * P0.e5 - P0.e4, c.x.2 * P0.e8 - P0.e7, c.x.2 * P0.e11 - P0.e10],
    ![c.xp.1 * P1.e2 - P1.e0, c.xp.1 * P1.e5 - P1.e3, c.xp.1 * P1.e8 - P1.e6, c.xp.1 * P1.e11 - P1.e9],
    ![c.xp.2 * P1.e2 - P1.e1, c.xp.2 * P1.e5 - P1.e4, c.xp.2 * P1.e8 - P1.e7, c.xp.2 * P1.e11 - P1.e10]]

/-- One point, `src/nx_pinhole.c:149-158`; `svd4` yields the columns of `U`. -/
def triangulatePoint [DecidableEq K] (svd4 : List (Fin 4 → K) → Fin 4 → Fin 4 → K) (c : PMatch K) (P0 P1 : M34 K) :
    Option (V3 K) :=
  let u := svd4 (triangulationColumns c P0 P1) 3
  let W := u 3
  if W = 0 then none else some ⟨u 0 / W, u 1 / W, u 2 / W⟩

/-- The arrays `X` and `corr_ids`, with the elements the caller has allocated. -/
structure TriOut (K : Type) where
  X : List (Option (V3 K))
  ids : List Int
deriving DecidableEq, Repr

/-- The loop of `nx_pinhole_triangulate`, `src/nx_pinhole.c:147-163`, from index `i` on; the first number is `n_corr - i`. -/
def triangulateLoop [DecidableEq K] (svd4 : List (Fin 4 → K) → Fin 4 → Fin 4 → K) (P0 P1 : M34 K) :
    Nat → List (PMatch K) → Nat → Nat → TriOut K → Res (TriOut K × Nat)
  | 0, _, _, pt, o => .ok (o, pt)
  | _ + 1, [], _, _, _ => .ub
  | n + 1, c :: cs, i, pt, o =>
    if c.inlier then
      if pt < o.X.length ∧ pt < o.ids.length then
        triangulateLoop svd4 P0 P1 n cs (i + 1) (pt + 1)
          ⟨o.X.set pt (triangulatePoint svd4 c P0 P1), o.ids.set pt i⟩
      else .ub
    else triangulateLoop svd4 P0 P1 n cs (i + 1) pt o

/-- `nx_pinhole_triangulate`, `src/nx_pinhole.c:127-168`: the arrays and the returned number. -/
def pinholeTriangulate [DecidableEq K] (svd4 : List (Fin 4 → K) → Fin 4 → Fin 4 → K) (nPt : Int) (o : TriOut K) (n : Int)
    (corr : List (PMatch K)) (P0 P1 : M34 K) : Res (TriOut K × Int) := do
  let k ← countInliers n.toNat corr 0
  let m : Int := if (k : Int) > nPt then nPt else k
  let r ← triangulateLoop svd4 P0 P1 n.toNat corr 0 0 o
  if m = (r.2 : Int) then pure (r.1, m) else .fatal

end

end Nx
