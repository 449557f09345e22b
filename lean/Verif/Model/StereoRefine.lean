import Verif.Model.Homography

/-!
# Model of the refinement of a homography, `tools/vg_stereo_matcher_main.cc:263-429`, with `src/nx_linear_solvers.c`

Exact arithmetic as in `Model/Homography.lean`. A mean that is not a number (there are no inliers, or a point is taken to infinity) is `none`;
comparisons with it fail. The solver of LAPACK is a parameter. Messages are left out.
-/

namespace Nx

section
variable {K : Type} [Field K] [DecidableEq K]

/-- `Hx`, `tools/vg_stereo_matcher_main.cc:276-279`. -/
def refineHx (h : M3 K) (x : K × K) : K × K × K :=
  (h.e0 * x.1 + h.e3 * x.2 + h.e6, h.e1 * x.1 + h.e4 * x.2 + h.e7, h.e2 * x.1 + h.e5 * x.2 + h.e8)

/-- What is stored behind `Jt`, `tools/vg_stereo_matcher_main.cc:291-309`. -/
def refineRows (x : K × K) (p : K × K × K) : List K :=
  [x.1 / p.2.2, 0, -(x.1 * p.1) / (p.2.2 * p.2.2),
   x.2 / p.2.2, 0, -(x.2 * p.1) / (p.2.2 * p.2.2),
   1 / p.2.2, 0, -p.1 / (p.2.2 * p.2.2),
   0, x.1 / p.2.2, -(x.1 * p.2.1) / (p.2.2 * p.2.2),
   0, x.2 / p.2.2, -(x.2 * p.2.1) / (p.2.2 * p.2.2),
   0, 1 / p.2.2, -p.2.1 / (p.2.2 * p.2.2)]

/-- The variables of `homography_transfer_error_and_jacobian`: `E`, `n_inliers`, the two arrays, and how far the pointers have advanced. -/
structure ErrJac (K : Type) where
  E : K
  nIn : Nat
  e : List K
  jt : List K
  pe : Nat
  pj : Nat
deriving DecidableEq, Repr

/-- What is done for an inlier, `tools/vg_stereo_matcher_main.cc:273-311`. `out` says that the pointers `e` and `Jt` are not null. -/
def errInlier (out : Bool) (h : M3 K) (c : PMatch K) (s : ErrJac K) : Res (Option (ErrJac K)) :=
  let p := refineHx h c.x
  if p.2.2 = 0 then .ok none
  else
    let ex := c.xp.1 - p.1 / p.2.2
    let ey := c.xp.2 - p.2.1 / p.2.2
    let s := { s with nIn := s.nIn + 1, E := s.E + (ex * ex + ey * ey) }
    if out then do
      let e ← writeBlock s.e s.pe [ex, ey]
      let jt ← writeBlock s.jt s.pj (refineRows c.x p)
      pure (some { s with e := e, jt := jt, pe := s.pe + 2, pj := s.pj + 18 })
    else pure (some s)

/-- Body of the loop, `tools/vg_stereo_matcher_main.cc:270-312`. -/
def errBody (out : Bool) (pm : List (PMatch K)) (h : M3 K) (i : Nat) (s : Option (ErrJac K)) : Res (Option (ErrJac K)) := do
  let c ← readAt pm i
  match s with
  | none => pure none
  | some s => if c.inlier then errInlier out h c s else pure (some s)

/-- `homography_transfer_error_and_jacobian`, `tools/vg_stereo_matcher_main.cc:263-317`: the mean and the two arrays, `none` if the mean is
not a number. -/
def errJac (out : Bool) (n : Nat) (pm : List (PMatch K)) (h : M3 K) (e jt : List K) : Res (Option (K × List K × List K)) := do
  let s ← forLoop n (errBody out pm h) 0 (some ⟨0, 0, e, jt, 0, 0⟩)
  match s with
  | none => pure none
  | some s => if s.nIn = 0 then pure none else pure (some (s.E / s.nIn, s.e, s.jt))

/-- The inner statement, `tools/vg_stereo_matcher_main.cc:325-327`. -/
def levMarTerm (n m : Nat) (jt : List K) (c r k : Nat) (A : List K) : Res (List K) := do
  let a ← readAt jt (k * n + r)
  let b ← readAt jt (c * m + k)
  writeAt A (c * n + r) (a * b)

/-- One element, `tools/vg_stereo_matcher_main.cc:324-327`. -/
def levMarEntry (n m : Nat) (jt : List K) (c r : Nat) (A : List K) : Res (List K) := do
  let A ← writeAt A (c * n + r) 0
  forLoop m (levMarTerm n m jt c r) 0 A

/-- `A[i * n + i] += lambda * A[i * n + i]`, `tools/vg_stereo_matcher_main.cc:331-332`. -/
def levMarDiag (n : Nat) (lambda : K) (i : Nat) (A : List K) : Res (List K) := do
  let a ← readAt A (i * n + i)
  writeAt A (i * n + i) (a + lambda * a)

/-- `lev_mar_compute_A`, `tools/vg_stereo_matcher_main.cc:319-333`. -/
def levMarA (n : Nat) (A : List K) (lambda : K) (m : Nat) (jt : List K) : Res (List K) := do
  let A ← forLoop n (fun c A => forLoop n (fun r A => levMarEntry n m jt c r A) 0 A) 0 A
  forLoop n (levMarDiag n lambda) 0 A

/-- `nx_dsym_solver`, `src/nx_linear_solvers.c:36-57`: `info == 0` and the array `B` afterwards. The matrix, which is destroyed, is not
used again. `dsysv` is the LAPACK function: the value of `info` and `B`. -/
def dsymSolver (dsysv : List K → List K → Int × List K) (A B : List K) : Bool × List K :=
  let r := dsysv A B
  (decide (r.1 = 0), r.2)

/-- `h[j] + Jte[j]` for all `j`, `tools/vg_stereo_matcher_main.cc:371-372` and `:388-389`. -/
def addStep (h : M3 K) (d : List K) : Res (M3 K) := do
  let d0 ← readAt d 0
  let d1 ← readAt d 1
  let d2 ← readAt d 2
  let d3 ← readAt d 3
  let d4 ← readAt d 4
  let d5 ← readAt d 5
  let d6 ← readAt d 6
  let d7 ← readAt d 7
  let d8 ← readAt d 8
  pure ⟨h.e0 + d0, h.e1 + d1, h.e2 + d2, h.e3 + d3, h.e4 + d4, h.e5 + d5, h.e6 + d6, h.e7 + d7, h.e8 + d8⟩

end

section
variable {K : Type} [Field K] [LinearOrder K]

/-- `Enew < E`; the comparison fails if `Enew` is not a number. -/
def meanBelow (r : Option (K × List K × List K)) (E : K) : Bool :=
  match r with
  | none => false
  | some r => decide (r.1 < E)

/-- The loop `while (!done)`, `tools/vg_stereo_matcher_main.cc:362-387`: `Jte`, `lambda` and `tries` afterwards. The value of
`nx_dsym_solver` is called `info` and is fatal unless it is zero. -/
def refineTry (dsysv : List K → List K → Int × List K) (n : Nat) (pm : List (PMatch K)) (N : Nat) (jt A : List K) (h : M3 K) (E : K)
    (jte : List K) (lambda : K) (tries : Nat) : Res (List K × K × Nat) := do
  let A ← levMarA 9 A lambda (2 * N) jt
  let r := dsymSolver dsysv A jte
  if r.1 then .fatal
  else do
    let hnew ← addStep h r.2
    let enew ← errJac false n pm hnew [] []
    let lambda' := if meanBelow enew E then lambda / (6 / 5) else lambda * 2
    if ht : tries + 1 > 40 then .fatal
    else if meanBelow enew E then pure (r.2, lambda', tries + 1)
    else refineTry dsysv n pm N jt A h E r.2 lambda' (tries + 1)
termination_by 41 - tries

/-- The state of the outer loop. -/
structure Refine (K : Type) where
  h : M3 K
  E : K
  e : List K
  jt : List K
  jte : List K
  lambda : K
  tries : Nat

/-- Body of the outer loop, `tools/vg_stereo_matcher_main.cc:359-399`. If the mean is not a number at its end the next iterations cannot
succeed, and the program ends with an error. -/
def refineBody (dsysv : List K → List K → Int × List K) (n : Nat) (pm : List (PMatch K)) (N : Nat) (A : List K) (_ : Nat) (s : Refine K) :
    Res (Refine K) := do
  let r ← refineTry dsysv n pm N s.jt A s.h s.E s.jte s.lambda s.tries
  let h ← addStep s.h r.1
  let v ← errJac true n pm h s.e s.jt
  match v with
  | none => .fatal
  | some v => do
    let jte ← dmatMul 9 1 (2 * N) v.2.2 9 v.2.1 (2 * N) r.1 9
    pure ⟨h, v.1, v.2.1, v.2.2, jte, r.2.1, r.2.2⟩

/-- The start of `estimate_homography_nonlinear`, `tools/vg_stereo_matcher_main.cc:343-356`, on a matrix that is already divided by its last
element. The new arrays contain `e0`, `jt0` and `jte0`. -/
def refineStart (n : Nat) (pm : List (PMatch K)) (h : M3 K) (N : Nat) (e0 jt0 jte0 : List K) : Res (Refine K) := do
  let v ← errJac true n pm h e0 jt0
  match v with
  | none => .fatal
  | some v => do
    let jte ← dmatMul 9 1 (2 * N) v.2.2 9 v.2.1 (2 * N) jte0 9
    pure ⟨h, v.1, v.2.1, v.2.2, jte, 1, 0⟩

/-- `h[i] /= h[8]`, `tools/vg_stereo_matcher_main.cc:338-339`; the last element is divided last. -/
def refineScale (h : M3 K) : M3 K :=
  ⟨h.e0 / h.e8, h.e1 / h.e8, h.e2 / h.e8, h.e3 / h.e8, h.e4 / h.e8, h.e5 / h.e8, h.e6 / h.e8, h.e7 / h.e8, h.e8 / h.e8⟩

/-- `estimate_homography_nonlinear`, `tools/vg_stereo_matcher_main.cc:335-429`: the homography, the matches and the number of inliers. The
arrays `e`, `Jt`, `Jte` and `A` have indeterminate values at first. If the last element of `h` is zero, no mean is a number, and the
program ends with an error. -/
def refineHomography (dsysv : List K → List K → Int × List K) (n : Nat) (pm : List (PMatch K)) (h : M3 K) (e0 jt0 jte0 A : List K) :
    Res (M3 K × List (PMatch K) × Nat) := do
  if h.e8 = 0 then .fatal
  else do
    let N ← countInliers n pm 0
    let s ← refineStart n pm (refineScale h) N e0 jt0 jte0
    let s ← forLoop 10 (refineBody dsysv n pm N A) 0 s
    let m ← markInliers s.h n pm 3
    pure (s.h, m.1, m.2)

end

end Nx
