import Verif.Core

/-!
# Model of the robust estimator, `src/nx_usac.c:34-124`

The callbacks of `struct NXUSACConfig` (`include/virg/nexus/nx_usac.h:34-66`) are
arbitrary functions that may read and change the caller's `data` (type `σ`).
Models (`double *` of `m` numbers), sample sets and scores are of arbitrary types.
Simplifications: the check and score callbacks do not modify the model they are
given, `model_fit_fn` returns as many models as it says, and the buffers are not
modelled.
-/

namespace Nx

/-- `struct NXUSACConfig`, `include/virg/nexus/nx_usac.h:56-66`, together with the
comparison of scores. -/
structure UsacConfig (σ M S R : Type) where
  sample : S → σ → S × σ
  sampleCheck : S → σ → Bool × σ
  fit : S → σ → List M × σ
  modelCheck : M → S → σ → Bool × σ
  score : M → S → σ → R × σ
  degeneracyCheck : M → S → σ → Bool × σ
  /-- the refined model, `none` if the callback returns false -/
  localRefinement : M → S → σ → Option M × σ
  globalRefinement : M → σ → M × σ
  terminate : M → R → σ → Bool × σ
  /-- `a > b` -/
  gt : R → R → Bool

/-- A call of `model_score_fn` (not part of the program state, only recorded to
state properties). -/
structure ScoreCall (M R : Type) where
  model : M
  score : R
  /-- the degeneracy check was called afterwards and returned false -/
  rejected : Bool
  /-- the result of the model check before (`true` for refined models, which are not
  checked) -/
  checked : Bool

/-- The variables of `nx_usac`; `calls` and `bests` record the calls of the score
function and the values assigned to `best_score`. -/
structure UsacState (σ M R : Type) where
  data : σ
  best : M
  bestScore : R
  calls : List (ScoreCall M R)
  bests : List R

variable {σ M S R : Type}

/-- `nx_dvec_copy(m, best_model, model); best_score = score;`, `src/nx_usac.c:90-101`. -/
def UsacState.update (s : UsacState σ M R) (model : M) (score : R) : UsacState σ M R :=
  { s with best := model, bestScore := score, bests := s.bests ++ [score] }

/-- Recording a call of the score function. -/
def UsacState.called (s : UsacState σ M R) (model : M) (score : R) (rejected checked : Bool) (d : σ) :
    UsacState σ M R :=
  { s with data := d, calls := s.calls ++ [⟨model, score, rejected, checked⟩] }

/-- Local refinement and update of the best model, `src/nx_usac.c:79-102`. -/
def usacImprove (c : UsacConfig σ M S R) (ids : S) (s : UsacState σ M R) (model : M) (score : R) :
    UsacState σ M R :=
  match c.localRefinement model ids s.data with
  | (some refined, d) =>
    let r := c.score refined ids d
    let s := s.called refined r.1 false true r.2
    if c.gt r.1 score then s.update refined r.1 else s.update model score
  | (none, d) => { s with data := d }.update model score

/-- The body of the loop over the models, `src/nx_usac.c:63-104`. -/
def usacModel (c : UsacConfig σ M S R) (ids : S) (s : UsacState σ M R) (model : M) : UsacState σ M R :=
  let k := c.modelCheck model ids s.data
  if k.1 = false then { s with data := k.2 }
  else
    let r := c.score model ids k.2
    if c.gt r.1 s.bestScore then
      let g := c.degeneracyCheck model ids r.2
      let s := s.called model r.1 (!g.1) k.1 g.2
      if g.1 = false then s else usacImprove c ids s model r.1
    else s.called model r.1 false k.1 r.2

/-- The main loop, `src/nx_usac.c:52-105`, for at most `fuel` iterations; `none` if
it has not ended by then. -/
def usacLoop (c : UsacConfig σ M S R) : Nat → S → UsacState σ M R → Option (S × UsacState σ M R)
  | 0, _, _ => none
  | fuel + 1, ids, s =>
    let t := c.terminate s.best s.bestScore s.data
    if t.1 = true then some (ids, { s with data := t.2 })
    else
      let q := c.sample ids t.2
      let k := c.sampleCheck q.1 q.2
      if k.1 = false then usacLoop c fuel q.1 { s with data := k.2 }
      else
        let f := c.fit q.1 k.2
        usacLoop c fuel q.1 (f.1.foldl (usacModel c q.1) { s with data := f.2 })

/-- The final refinement, `src/nx_usac.c:107-115`. -/
def usacFinish (c : UsacConfig σ M S R) (ids : S) (s : UsacState σ M R) : UsacState σ M R :=
  let g := c.globalRefinement s.best s.data
  let r := c.score g.1 ids g.2
  let s' := s.called g.1 r.1 false true r.2
  if c.gt r.1 s.bestScore then s'.update g.1 r.1 else s'

/-- `nx_usac`, `src/nx_usac.c:34-124`: the final state, holding the returned score
and model. `zero` is the zero model, `worst` is `-DBL_MAX`, `ids` the uninitialised
sample buffer. -/
def usac (c : UsacConfig σ M S R) (fuel : Nat) (zero : M) (worst : R) (ids : S) (d : σ) :
    Option (UsacState σ M R) :=
  (usacLoop c fuel ids ⟨d, zero, worst, [], []⟩).map (fun r => usacFinish c r.1 r.2)

end Nx
