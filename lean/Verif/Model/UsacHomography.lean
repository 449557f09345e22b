import Verif.Model.Ransac
import Verif.Model.Usac

/-!
# Model of the estimation of homographies with USAC, `src/nx_usac_homography.c`

The callbacks of the file, given to the estimator of `Model/Usac.lean`. What they share is `UData`; as they may also end
with undefined behaviour or need more random numbers than there are, the state of the estimator is the outcome so far. Once it
is a failure it stays so, and the loop ends. Exact arithmetic as in `Model/Homography.lean`, random numbers and sorting as in
`Model/Ransac.lean`.
-/

namespace Nx

section
variable {K : Type}

/-- `struct NXUSACHomographyData`, `src/nx_usac_homography.c:38-46`, without the members that do not change, and the random
numbers to come. -/
structure UData (K : Type) where
  corr : List (PMatch K)
  nTop : Nat
  nIter : Nat
  rnd : List (BitVec 32)
deriving DecidableEq

/-- The outcome so far. -/
abbrev UOutcome (K : Type) := Res (Run (UData K))

/-- A callback that works on the data, with `dflt` as its value if there are none any more. -/
def withData {β : Type} (dflt : β) (s : UOutcome K) (f : UData K → Res (Run (β × UData K))) : β × UOutcome K :=
  match s with
  | .ok (.done d) =>
    match f d with
    | .ok (.done p) => (p.1, .ok (.done p.2))
    | .ok .starved => (dflt, .ok .starved)
    | .ok .nan => (dflt, .ok .nan)
    | .fatal => (dflt, .fatal)
    | .ub => (dflt, .ub)
  | s => (dflt, s)

/-- `nx_usac_homography_sampling`, `src/nx_usac_homography.c:48-65`. -/
def usacHSample (ids : Nat × Nat × Nat × Nat) (s : UOutcome K) : (Nat × Nat × Nat × Nat) × UOutcome K :=
  withData ids s fun d =>
    match selectProsac4 d.nTop d.rnd with
    | none => .ok .starved
    | some (i, r) => .ok (.done (i, { d with rnd := r }))

/-- `nx_usac_homography_terminate`, `src/nx_usac_homography.c:166-184`. The score is the number of inliers, `none` stands for
`-DBL_MAX`. The conversion of this value to `int` is undefined; `undef` is the value that it has nevertheless. -/
def usacHTerminate (n : Nat) (maxIter : Int) (undef : Option Int) (score : Option Nat) (s : UOutcome K) : Bool × UOutcome K :=
  withData true s fun d =>
    let d : UData K := { d with nIter := d.nIter + 1, nTop := if d.nTop + 1 ≥ n then n else d.nTop + 1 }
    match score, undef with
    | some k, _ => .ok (.done (decide ((d.nIter : Int) ≥ maxIter ∨ k ≥ 200), d))
    | none, some v => .ok (.done (decide ((d.nIter : Int) ≥ maxIter ∨ v ≥ 200), d))
    | none, none => .ub

variable [Field K] [LinearOrder K]

/-- The zero model, `nx_dvec_set_zero`, `src/nx_usac.c:44`. -/
def zeroModel : M3 K := ⟨0, 0, 0, 0, 0, 0, 0, 0, 0⟩

/-- `nx_usac_fit_homography`, `src/nx_usac_homography.c:77-93`. The contents of the array before are not used by the function
and it does not count if there is no model, so they are zero here. -/
def usacHFit (ids : Nat × Nat × Nat × Nat) (s : UOutcome K) : List (M3 K) × UOutcome K :=
  withData [] s fun d => (estimate4pt zeroModel (ids4 ids) d.corr).bind fun r =>
    .ok (.done (if r.2 = 0 then [] else [r.1], d))

/-- `nx_usac_score_homography`, `src/nx_usac_homography.c:108-121`. -/
def usacHScore (n : Nat) (tol : K) (h : M3 K) (s : UOutcome K) : Option Nat × UOutcome K :=
  withData none s fun d => (markInliers h n d.corr tol).bind fun r => .ok (.done (some r.2, { d with corr := r.1 }))

/-- `nx_usac_refine_homography_global`, `src/nx_usac_homography.c:145-164`. -/
def usacHGlobal (svd : List (Fin 9 → K) → (Fin 9 → Fin 9 → K) × List K) (n : Nat) (tol : K) (h : M3 K) (s : UOutcome K) :
    M3 K × UOutcome K :=
  withData h s fun d => (markInliers h n d.corr tol).bind fun r =>
    (refineLoop (fun h corr => markInliers h n corr tol)
      (fun h corr => (estimateDltInliers svd h n corr).bind fun e => .ok e.1) (n + 1) h r.1 r.2 1).bind fun
      | none => .ok .starved
      | some o => .ok (.done (o.1, { d with corr := o.2.1 }))

/-- The callbacks, `src/nx_usac_homography.c:207-216`; `nx_usac_check_homography_sample`,
`nx_usac_check_homography_degeneracy`, `nx_usac_refine_homography_local`, `src/nx_usac_homography.c:67-75`, `:123-143`, are
constant, `nx_usac_check_homography`, `:95-106`, compares with `maxAbsCos`, the cosine of five degrees. -/
def usacHConfig (svd : List (Fin 9 → K) → (Fin 9 → Fin 9 → K) × List K) (maxAbsCos : K) (n : Nat) (tol : K) (maxIter : Int)
    (undef : Option Int) : UsacConfig (UOutcome K) (M3 K) (Nat × Nat × Nat × Nat) (Option Nat) where
  sample := usacHSample
  sampleCheck := fun _ s => (true, s)
  fit := usacHFit
  modelCheck := fun h _ s => (homographyCheck h maxAbsCos, s)
  score := fun h _ s => usacHScore n tol h s
  degeneracyCheck := fun _ _ s => (true, s)
  localRefinement := fun _ _ s => (none, s)
  globalRefinement := usacHGlobal svd n tol
  terminate := fun _ score s => usacHTerminate n maxIter undef score s
  gt := fun a b =>
    match a, b with
    | none, _ => false
    | some _, none => true
    | some a, some b => decide (b < a)

/-- `nx_usac_estimate_homography`, `src/nx_usac_homography.c:186-228`. The list `hyps` does not exist in the code: the models that
were scored in the main loop. The loop is given as many iterations as it needs (`c97_ends`). -/
def usacHomography (svd : List (Fin 9 → K) → (Fin 9 → Fin 9 → K) × List K) (qsort : List (PMatch K) → List (PMatch K))
    (maxAbsCos : K) (undef : Option Int) (h : M3 K) (n : Int) (corr : List (PMatch K)) (tol : K) (maxIter : Int)
    (rnd : List (BitVec 32)) : Res (Run (ROut K)) :=
  if n < 4 then .ok (.done ⟨h, corr, 0, []⟩)
  else
    (sortFirst qsort n.toNat corr).bind fun corr =>
      match usac (usacHConfig svd maxAbsCos n.toNat tol maxIter undef) (maxIter.toNat + 1) zeroModel none (0, 0, 0, 0)
          (.ok (.done ⟨corr, if 10 > n.toNat then n.toNat else 10, 0, rnd⟩)) with
      | none => .ok .starved
      | some s =>
        s.data.bind fun
          | .done d => (markInliers s.best n d.corr tol).bind fun r =>
            .ok (.done ⟨s.best, r.1, if homographyCheck s.best maxAbsCos then r.2 else 0, (s.calls.map fun e => e.model).dropLast⟩)
          | .starved => .ok .starved
          | .nan => .ok .nan

end

end Nx
