import Verif.Model.UniformSampler

/-!
# Model of the estimation from matches with outliers: `nx_homography_estimate_ransac`, `src/nx_homography.c`, and
`nx_fundamental_estimate_ransac`, `src/nx_epipolar.c`

Exact arithmetic as in `Model/Homography.lean`. The 32 bit random numbers are a list; a run for which they do not suffice
is `starved`. `qsort` is an arbitrary function (that properties assume to permute). The two functions have the same main
loop and the same refinement loop, which are modelled once.
-/

namespace Nx

/-- The outcome of a run that ends without an abort: a result, more random numbers needed, or (only with normalisation)
a computation with infinities or NaNs. -/
inductive Run (α : Type) where
  | done (a : α)
  | starved
  | nan
deriving DecidableEq, Repr

section
variable {K : Type}

/-- The variables of the main loop. `best` is the array `h_best` or `F_best`, `none` if it has not been written. `hyps` does
not exist in the code: the hypotheses scored so far. -/
structure RState (K : Type) where
  h : M3 K
  best : Option (M3 K)
  nBest : Nat
  nIn : Nat
  corr : List (PMatch K)
  nTop : Nat
  rnd : List (BitVec 32)
  hyps : List (M3 K)

/-- What the functions leave in their arguments, and the returned value; `hyps` as before. -/
structure ROut (K : Type) where
  h : M3 K
  corr : List (PMatch K)
  count : Nat
  hyps : List (M3 K)
deriving DecidableEq

/-- The end of the body of the main loop, `src/nx_homography.c:312-325`, `src/nx_epipolar.c:242-257`, after a hypothesis `h` has been
marked with the result `r`. -/
def RState.update (s : RState K) (n : Nat) (h : M3 K) (rnd : List (BitVec 32)) (r : List (PMatch K) × Nat) : RState K where
  h := h
  best := if r.2 > s.nBest then some h else s.best
  nBest := if r.2 > s.nBest then r.2 else s.nBest
  nIn := r.2
  corr := r.1
  nTop := if s.nTop + 1 ≥ n then n else s.nTop + 1
  rnd := rnd
  hyps := s.hyps ++ [h]

/-- A proposed hypothesis with the random numbers that are left. -/
abbrev Proposal (K : Type) := Run (M3 K × List (BitVec 32))

/-- The main loop, `src/nx_homography.c:302-326`, `src/nx_epipolar.c:238-258`; the first number is `max_n_iter - iter`. -/
def ransacLoop (limit n : Nat) (propose : Nat → M3 K → List (PMatch K) → List (BitVec 32) → Res (Proposal K))
    (mark : M3 K → List (PMatch K) → Res (List (PMatch K) × Nat)) : Nat → RState K → Res (Run (RState K))
  | 0, s => .ok (.done s)
  | k + 1, s =>
    if s.nIn < limit then
      (propose s.nTop s.h s.corr s.rnd).bind fun
        | .done p => (mark p.1 s.corr).bind fun r => ransacLoop limit n propose mark k (s.update n p.1 p.2 r)
        | .starved => .ok .starved
        | .nan => .ok .nan
    else .ok (.done s)

/-- The refinement loop, `src/nx_homography.c:331-336`, `src/nx_epipolar.c:267-274`, for at most as many iterations as the first
number says: `none` if that is not enough. `best` is `n_inliers_best`, `nIn` is `n_inliers`. -/
def refineLoop (mark : M3 K → List (PMatch K) → Res (List (PMatch K) × Nat))
    (refit : M3 K → List (PMatch K) → Res (M3 K)) :
    Nat → M3 K → List (PMatch K) → Nat → Nat → Res (Option (M3 K × List (PMatch K) × Nat))
  | 0, _, _, _, _ => .ok none
  | f + 1, h, corr, best, nIn =>
    if best > nIn + 5 then do
      let h ← refit h corr
      let r ← mark h corr
      refineLoop mark refit f h r.1 r.2 best
    else .ok (some (h, corr, best))

/-- From the end of the main loop, `src/nx_homography.c:329-336`, `src/nx_epipolar.c:262-274`: the array of the best hypothesis is
copied, whether it has been written or not. -/
def ransacFinish (mark : M3 K → List (PMatch K) → Res (List (PMatch K) × Nat))
    (refit : M3 K → List (PMatch K) → Res (M3 K)) (n : Nat) (s : RState K) : Res (Run (ROut K)) :=
  match s.best with
  | none => .ub
  | some hb => do
    let r ← mark hb s.corr
    let o ← refineLoop mark refit (n + 1) hb r.1 r.2 1
    match o with
    | none => .ok .starved
    | some o => .ok (.done ⟨o.1, o.2.1, o.2.2, s.hyps⟩)

/-- `qsort((void *)corr_list, n_corr, …)`. -/
def sortFirst (qsort : List (PMatch K) → List (PMatch K)) (n : Nat) (corr : List (PMatch K)) : Res (List (PMatch K)) :=
  if n ≤ corr.length then .ok (qsort (corr.take n) ++ corr.drop n) else .ub

/-- The common part, `src/nx_homography.c:288-336`, `src/nx_epipolar.c:226-274`. -/
def ransacCore (limit n : Nat) (maxIter : Int) (qsort : List (PMatch K) → List (PMatch K))
    (propose : Nat → M3 K → List (PMatch K) → List (BitVec 32) → Res (Proposal K))
    (mark : M3 K → List (PMatch K) → Res (List (PMatch K) × Nat)) (refit : M3 K → List (PMatch K) → Res (M3 K))
    (h : M3 K) (corr : List (PMatch K)) (rnd : List (BitVec 32)) : Res (Run (ROut K)) :=
  (sortFirst qsort n corr).bind fun corr =>
    (ransacLoop limit n propose mark maxIter.toNat ⟨h, none, 0, 0, corr, if 10 > n then n else 10, rnd, []⟩).bind fun
      | .done s => ransacFinish mark refit n s
      | .starved => .ok .starved
      | .nan => .ok .nan

variable [Field K] [LinearOrder K]

/-- The four indices as an array. -/
def ids4 (i : Nat × Nat × Nat × Nat) : Fin 4 → Int := ![i.1, i.2.1, i.2.2.1, i.2.2.2]

/-- The loop that makes a hypothesis, `src/nx_homography.c:305-310`; the first number is `tries - 1`. -/
def tryLoop (maxAbsCos : K) (corr : List (PMatch K)) (nTop : Nat) : Nat → M3 K → List (BitVec 32) → Res (Proposal K)
  | t, h, rnd =>
    match selectProsac4 nTop rnd with
    | none => .ok .starved
    | some (i, rnd) =>
      (estimate4pt h (ids4 i) corr).bind fun r =>
        match t with
        | 0 => .ok (.done (r.1, rnd))
        | t + 1 =>
          if r.2 = 0 ∧ homographyCheck r.1 maxAbsCos = false then tryLoop maxAbsCos corr nTop t r.1 rnd
          else .ok (.done (r.1, rnd))

/-- `nx_homography_estimate_ransac`, `src/nx_homography.c:276-343`; `maxAbsCos` is the cosine of 15 degrees. -/
def homographyRansac (svd : List (Fin 9 → K) → (Fin 9 → Fin 9 → K) × List K) (qsort : List (PMatch K) → List (PMatch K))
    (maxAbsCos : K) (h : M3 K) (n : Int) (corr : List (PMatch K)) (tol : K) (maxIter : Int) (rnd : List (BitVec 32)) :
    Res (Run (ROut K)) :=
  if n < 4 then .ok (.done ⟨h, corr, 0, []⟩)
  else
    (ransacCore 200 n.toNat maxIter qsort (fun nTop h corr rnd => tryLoop maxAbsCos corr nTop 9 h rnd)
        (fun h corr => markInliers h n corr tol)
        (fun h corr => (estimateDltInliers svd h n corr).bind fun e => .ok e.1) h corr rnd).bind fun
      | .done o => .ok (.done { o with count := if homographyCheck o.h maxAbsCos then o.count else 0 })
      | .starved => .ok .starved
      | .nan => .ok .nan

/-- `nx_homography_estimate_norm_ransac`, `src/nx_homography.c:345-360`. -/
def homographyNormRansac (sqrt : K → K) (svd : List (Fin 9 → K) → (Fin 9 → Fin 9 → K) × List K)
    (qsort : List (PMatch K) → List (PMatch K)) (maxAbsCos : K) (h : M3 K) (n : Int) (corr : List (PMatch K)) (tol : K)
    (maxIter : Int) (rnd : List (BitVec 32)) : Res (Run (ROut K)) :=
  (normalizeMatches sqrt n corr).bind fun
    | none => .ok .nan
    | some (st, corr) =>
      (homographyRansac svd qsort maxAbsCos h n corr (tol / st.dp) maxIter rnd).bind fun
        | .done o => (denormalizeMatches st n o.corr).bind fun corr =>
          .ok (.done { o with h := denormalizeHomography st o.h, corr := corr })
        | .starved => .ok .starved
        | .nan => .ok .nan

/-- One hypothesis for the fundamental matrix, `src/nx_epipolar.c:239-240`. -/
def proposeFund (svd : List (Fin 9 → K) → (Fin 9 → Fin 9 → K) × List K) (svd3 : M3 K → M3 K × V3 K × M3 K)
    (corr : List (PMatch K)) (nTop : Nat) (rnd : List (BitVec 32)) : Res (Proposal K) :=
  match selectProsac8 nTop rnd with
  | none => .ok .starved
  | some (i, rnd) => (fundEstimate8pt svd svd3 (i.map Int.ofNat) corr).bind fun e => .ok (.done (e.1, rnd))

/-- `nx_fundamental_estimate_ransac`, `src/nx_epipolar.c:206-278`. -/
def fundamentalRansac (sqrt : K → K) (svd : List (Fin 9 → K) → (Fin 9 → Fin 9 → K) × List K)
    (svd3 : M3 K → M3 K × V3 K × M3 K) (qsort : List (PMatch K) → List (PMatch K)) (F : M3 K) (n : Int)
    (corr : List (PMatch K)) (tol : K) (maxIter : Int) (rnd : List (BitVec 32)) : Res (Run (ROut K)) :=
  if n < 8 then .ok (.done ⟨F, corr, 0, []⟩)
  else
    ransacCore 100 n.toNat maxIter qsort (fun nTop _ corr rnd => proposeFund svd svd3 corr nTop rnd)
      (fun F corr => fundMarkInliers sqrt F n corr tol)
      (fun F corr => (fundEstimateInliers svd svd3 F n corr).bind fun e => .ok e.1) F corr rnd

/-- `nx_fundamental_estimate_norm_ransac`, `src/nx_epipolar.c:280-299`. -/
def fundamentalNormRansac (sqrt : K → K) (svd : List (Fin 9 → K) → (Fin 9 → Fin 9 → K) × List K)
    (svd3 : M3 K → M3 K × V3 K × M3 K) (qsort : List (PMatch K) → List (PMatch K)) (F : M3 K) (n : Int)
    (corr : List (PMatch K)) (tol : K) (maxIter : Int) (rnd : List (BitVec 32)) : Res (Run (ROut K)) :=
  (normalizeMatches sqrt n corr).bind fun
    | none => .ok .nan
    | some (st, corr) =>
      (fundamentalRansac sqrt svd svd3 qsort F n corr (tol / st.dp) maxIter rnd).bind fun
        | .done o => (denormalizeMatches st n o.corr).bind fun corr =>
          .ok (.done { o with h := denormalizeFundamental st o.h, corr := corr })
        | .starved => .ok .starved
        | .nan => .ok .nan

end

end Nx
