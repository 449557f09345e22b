import Mathlib.Data.Fin.VecNotation
import Mathlib.Algebra.Order.Ring.Defs
import Verif.Model.Transform2D

/-!
# Model of homographies, `include/virg/nexus/nx_homography.h`, `src/nx_homography.c`,
`include/virg/nexus/nx_point_match_2d.h`

Exact arithmetic over an ordered field `K` (see `Model/Mat.lean`); the point coordinates,
which are `float`, and the matrices, which are `double`, are elements of the same field.
Where the code can divide by zero and goes on, the result is an explicit `none`, which
stands for an infinity or a NaN: all comparisons `<`, `>`, `<=` made with it that lead to a
positive decision fail. The singular value decomposition (LAPACK) is a parameter.
-/

namespace Nx

/-- `struct NXPointMatch2D`, `include/virg/nexus/nx_point_match_2d.h:33-42`. -/
structure PMatch (K : Type) where
  x : K × K
  xp : K × K
  cost : K
  sigmaX : K
  sigmaXp : K
  id : BitVec 64
  idp : BitVec 64
  inlier : Bool
deriving DecidableEq, Repr

/-- `nx_point_match_2d_count_inliers`, `include/virg/nexus/nx_point_match_2d.h:66-75`, on the first `n`
elements of the array, `n_inliers` is `acc`. -/
def countInliers {K : Type} : Nat → List (PMatch K) → Nat → Res Nat
  | 0, _, acc => .ok acc
  | _ + 1, [], _ => .ub
  | n + 1, c :: cs, acc => countInliers n cs (if c.inlier then acc + 1 else acc)

section
variable {K : Type} [Field K] [DecidableEq K]

/-- `nx_homography_transfer_fwd`, `include/virg/nexus/nx_homography.h:36-46`: the point, or `none` if the
division is one by zero, and the returned value. -/
def transferFwd (h : M3 K) (x : K × K) : Option (K × K) × K :=
  let s := h.e2 * x.1 + h.e5 * x.2 + h.e8
  if s = 0 then (none, s)
  else
    let s_inv := 1 / s
    (some ((h.e0 * x.1 + h.e3 * x.2 + h.e6) * s_inv, (h.e1 * x.1 + h.e4 * x.2 + h.e7) * s_inv), s)

/-- The gathering loops of `nx_homography_estimate_4pt`, `src/nx_homography.c:152-157` and `:162-167`. -/
def gather (sel : PMatch K → K × K) (ids : Fin 4 → Int) (corr : List (PMatch K)) : Res (A8 K) := do
  let a ← readI corr (ids 0)
  let b ← readI corr (ids 1)
  let c ← readI corr (ids 2)
  let d ← readI corr (ids 3)
  pure ⟨(sel a).1, (sel a).2, (sel b).1, (sel b).2, (sel c).1, (sel c).2, (sel d).1, (sel d).2⟩

/-- The end of `nx_homography_estimate_4pt`, `src/nx_homography.c:169-182`. -/
def fourFrom (h hu : M3 K) (xp : A8 K) : M3 K × K :=
  let (hup, det) := estimateUnit xp
  if det = 0 then (h, 0)
  else
    let det := dmat3Det hup
    if det = 0 then (h, 0)
    else (dmat3Mul (dmat3Inv hup).1 hu, det)

/-- `nx_homography_estimate_4pt`, `src/nx_homography.c:150-183`: the array `h` afterwards and the
returned value. The value returned by the first call of `nx_homography_estimate_unit` is
not looked at. -/
def estimate4pt (h : M3 K) (ids : Fin 4 → Int) (corr : List (PMatch K)) : Res (M3 K × K) := do
  let x ← gather PMatch.x ids corr
  let hu := (estimateUnit x).1
  let xp ← gather PMatch.xp ids corr
  pure (fourFrom h hu xp)

end

section
variable {K : Type} [Field K] [LinearOrder K]

/-- The test in the loop of `nx_homography_mark_inliers`, `src/nx_homography.c:108-114`. -/
def closeTo (m : Option (K × K)) (p : K × K) (tolSqr : K) : Bool :=
  match m with
  | none => false
  | some m =>
    let dx := m.1 - p.1
    let dy := m.2 - p.2
    decide (dx * dx + dy * dy < tolSqr)

/-- The loop of `nx_homography_mark_inliers`, `src/nx_homography.c:107-120`, on the first `n` elements:
the array afterwards and `n_inliers`. -/
def markLoop (test : PMatch K → Bool) : Nat → List (PMatch K) → Nat → Res (List (PMatch K) × Nat)
  | 0, cs, acc => .ok (cs, acc)
  | _ + 1, [], _ => .ub
  | n + 1, c :: cs, acc => do
    let b := test c
    let r ← markLoop test n cs (if b then acc + 1 else acc)
    pure ({ c with inlier := b } :: r.1, r.2)

/-- `nx_homography_mark_inliers`, `src/nx_homography.c:100-123`. -/
def markInliers (h : M3 K) (n : Int) (corr : List (PMatch K)) (tol : K) : Res (List (PMatch K) × Nat) :=
  markLoop (fun c => closeTo (transferFwd h c.x).1 c.xp (tol * tol)) n.toNat corr 0

/-- `nx_homography_mark_inliers_inv`, `src/nx_homography.c:125-148`. -/
def markInliersInv (hInv : M3 K) (n : Int) (corr : List (PMatch K)) (tol : K) : Res (List (PMatch K) × Nat) :=
  markLoop (fun c => closeTo (transferFwd hInv c.xp).1 c.x (tol * tol)) n.toNat corr 0

/-- `nx_homography_constraints_from_corr`, `src/nx_homography.c:185-196`: the eighteen numbers as two
rows of nine. -/
def constraintsFromCorr (c : PMatch K) : List (Fin 9 → K) :=
  let m := c.x
  let mp := c.xp
  [![0, 0, 0, -m.1, -m.2, -1, mp.2 * m.1, mp.2 * m.2, mp.2],
   ![m.1, m.2, 1, 0, 0, 0, -mp.1 * m.1, -mp.1 * m.2, -mp.1]]

/-- The value returned by an estimation: `DBL_MAX` for too few points, a singular value, or an indeterminate
value read from an uninitialised element. -/
inductive SVal (K : Type) where
  | dblMax
  | val (s : K)
  | indet
deriving DecidableEq, Repr

/-- The matrix after an estimation and the returned value. -/
abbrev Estimate (K : Type) := M3 K × SVal K

/-- Reading the array of singular values, of which the first ones have been written. -/
def readSVal (S : List K) (i : Nat) : SVal K :=
  match S[i]? with
  | some s => .val s
  | none => .indet

/-- `nx_homography_svd_solve`, `src/nx_homography.c:198-215`, `nx_fundamental_svd_solve`, `src/nx_epipolar.c:75-92`;
`A` is a matrix with nine rows, given as the list of its columns. `svd` yields the columns
of `U` and the singular values, of which LAPACK writes as many as the smaller dimension of `A`. -/
def svdSolve (svd : List (Fin 9 → K) → (Fin 9 → Fin 9 → K) × List K) (A : List (Fin 9 → K)) : Estimate K :=
  let (U, S) := svd A
  let u := U 8
  (⟨u 0, u 3, u 6, u 1, u 4, u 7, u 2, u 5, u 8⟩, readSVal S 8)

/-- The loop of `nx_homography_estimate_dlt`, `src/nx_homography.c:227-228`: the rows for the first `n` elements. -/
def dltRows : Nat → List (PMatch K) → Res (List (Fin 9 → K))
  | 0, _ => .ok []
  | _ + 1, [] => .ub
  | n + 1, c :: cs => do
    let r ← dltRows n cs
    pure (constraintsFromCorr c ++ r)

/-- `nx_homography_estimate_dlt`, `src/nx_homography.c:217-234`. The size in bytes does not overflow. -/
def estimateDlt (svd : List (Fin 9 → K) → (Fin 9 → Fin 9 → K) × List K) (h : M3 K) (n : Int)
    (corr : List (PMatch K)) : Res (Estimate K) :=
  if n < 4 then .ok (h, .dblMax)
  else do
    let A ← dltRows n.toNat corr
    pure (svdSolve svd A)

/-- The loop of `nx_homography_estimate_dlt_inliers`, `src/nx_homography.c:247-251`. -/
def dltInlierRows : Nat → List (PMatch K) → Res (List (Fin 9 → K))
  | 0, _ => .ok []
  | _ + 1, [] => .ub
  | n + 1, c :: cs => do
    let r ← dltInlierRows n cs
    pure (if c.inlier then constraintsFromCorr c ++ r else r)

/-- `nx_homography_estimate_dlt_inliers`, `src/nx_homography.c:236-257`. -/
def estimateDltInliers (svd : List (Fin 9 → K) → (Fin 9 → Fin 9 → K) × List K) (h : M3 K) (n : Int)
    (corr : List (PMatch K)) : Res (Estimate K) := do
  let k ← countInliers n.toNat corr 0
  if k < 4 then .ok (h, .dblMax)
  else do
    let A ← dltInlierRows n.toNat corr
    pure (svdSolve svd A)

/-- `line_eqn_2d`, `src/nx_homography.c:39-44`. -/
def lineEqn2d (p1 p2 : K × K) : V3 K :=
  let l0 := p2.2 - p1.2
  let l1 := p1.1 - p2.1
  ⟨l0, l1, -p1.1 * l0 - p1.2 * l1⟩

/-- The second half of `nx_homography_check`, `src/nx_homography.c:74-97`; a division by zero makes the
comparisons fail. -/
def checkCorners (A B C D : K × K) (maxAbsCos : K) : Bool :=
  let l := lineEqn2d A C
  let n := l.e0 * l.e0 + l.e1 * l.e1
  if n = 0 then false
  else
    let n_inv := 1 / n
    let l : V3 K := ⟨l.e0 * n_inv, l.e1 * n_inv, l.e2 * n_inv⟩
    let B_val := l.e0 * B.1 + l.e1 * B.2 + l.e2
    let D_val := l.e0 * D.1 + l.e1 * D.2 + l.e2
    let cross_check := B_val > 0 ∧ D_val < 0
    let AC : K × K := (-l.e1, l.e0)
    let BD : K × K := (B.1 - D.1, B.2 - D.2)
    let m := BD.1 * BD.1 + BD.2 * BD.2
    if m = 0 then false
    else
      let m_inv := 1 / m
      let BD : K × K := (BD.1 * m_inv, BD.2 * m_inv)
      let cos_AC_BD := AC.1 * BD.1 + AC.2 * BD.2
      let angle_check := max cos_AC_BD (-cos_AC_BD) ≤ maxAbsCos
      decide (cross_check ∧ angle_check)

/-- `nx_homography_check`, `src/nx_homography.c:48-98`. -/
def homographyCheck (h : M3 K) (maxAbsCos : K) : Bool :=
  let t_sum : V3 K := ⟨h.e0 + h.e3, h.e1 + h.e4, h.e2 + h.e5⟩
  let t_diff : V3 K := ⟨h.e0 - h.e3, h.e1 - h.e4, h.e2 - h.e5⟩
  let sA := -t_sum.e2 + h.e8
  let sB := t_diff.e2 + h.e8
  let sC := t_sum.e2 + h.e8
  let sD := -t_diff.e2 + h.e8
  if sA = 0 ∨ sB = 0 ∨ sC = 0 ∨ sD = 0 then false
  else
    checkCorners ((-t_sum.e0 + h.e6) * (1 / sA), (-t_sum.e1 + h.e7) * (1 / sA))
      ((t_diff.e0 + h.e6) * (1 / sB), (t_diff.e1 + h.e7) * (1 / sB))
      ((t_sum.e0 + h.e6) * (1 / sC), (t_sum.e1 + h.e7) * (1 / sC))
      ((-t_diff.e0 + h.e6) * (1 / sD), (-t_diff.e1 + h.e7) * (1 / sD)) maxAbsCos

/-- The loop of `nx_homography_transfer_error_fwd`, `src/nx_homography.c:605-617`: `e` and `n_inliers`.
An infinite or undefined distance makes the sum undefined (`none`). -/
def errorLoop (sqrt : K → K) (dist : PMatch K → Option (K × K) × (K × K)) : Nat → List (PMatch K) → Option K → Nat →
    Res (Option K × Nat)
  | 0, _, e, k => .ok (e, k)
  | _ + 1, [], _, _ => .ub
  | n + 1, c :: cs, e, k =>
    if c.inlier then
      let (q, p) := dist c
      let ei := q.map fun q => sqrt ((q.1 - p.1) * (q.1 - p.1) + (q.2 - p.2) * (q.2 - p.2))
      errorLoop sqrt dist n cs (e.bind fun e => ei.map (e + ·)) (k + 1)
    else errorLoop sqrt dist n cs e k

/-- The division at the end of the error functions, `src/nx_homography.c:618`, `:640`. -/
def errorMean (r : Option K × Nat) : Option K := if r.2 = 0 then none else r.1.map fun e => e / (r.2 : K)

/-- `nx_homography_transfer_error_fwd`, `src/nx_homography.c:600-619`. -/
def transferErrorFwd (sqrt : K → K) (h : M3 K) (n : Int) (corr : List (PMatch K)) : Res (Option K) := do
  let r ← errorLoop sqrt (fun c => ((transferFwd h c.x).1, c.xp)) n.toNat corr (some 0) 0
  pure (errorMean r)

/-- `nx_homography_transfer_error_bwd`, `src/nx_homography.c:621-641`. -/
def transferErrorBwd (sqrt : K → K) (h : M3 K) (n : Int) (corr : List (PMatch K)) : Res (Option K) := do
  let hInv := (dmat3Inv h).1
  let r ← errorLoop sqrt (fun c => ((transferFwd hInv c.xp).1, c.x)) n.toNat corr (some 0) 0
  pure (errorMean r)

/-- `nx_homography_transfer_error_sym`, `src/nx_homography.c:643-648`. -/
def transferErrorSym (sqrt : K → K) (h : M3 K) (n : Int) (corr : List (PMatch K)) : Res (Option K) := do
  let a ← transferErrorFwd sqrt h n corr
  let b ← transferErrorBwd sqrt h n corr
  pure (a.bind fun a => b.map fun b => 1 / 2 * (a + b))

end

end Nx
