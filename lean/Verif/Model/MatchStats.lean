import Verif.Model.Homography

/-!
# Model of the normalisation of matches, `src/nx_point_match_2d_stats.c`

Exact arithmetic, see `Model/Homography.lean`; `sqrt` is a parameter.
-/

namespace Nx

/-- `struct NXPointMatch2DStats`, `include/virg/nexus/nx_point_match_2d_stats.h`. -/
structure MStats (K : Type) where
  m : K × K
  mp : K × K
  d : K
  dp : K
deriving DecidableEq, Repr

section
variable {K : Type} [Field K]

/-- `nx_point_match_2d_stats_reset`, `src/nx_point_match_2d_stats.c:45-53`. -/
def statsReset : MStats K := ⟨(0, 0), (0, 0), 1, 1⟩

/-- The first loop of `nx_point_match_2d_stats_normalize_matches`, `src/nx_point_match_2d_stats.c:61-67`. -/
def sumLoop : Nat → List (PMatch K) → MStats K → Res (MStats K)
  | 0, _, st => .ok st
  | _ + 1, [], _ => .ub
  | n + 1, c :: cs, st =>
    sumLoop n cs { st with
      m := (st.m.1 + c.x.1, st.m.2 + c.x.2)
      mp := (st.mp.1 + c.xp.1, st.mp.2 + c.xp.2) }

/-- The second loop, `src/nx_point_match_2d_stats.c:74-83`: the array afterwards and the sums of the distances. -/
def centreLoop (sqrt : K → K) (st : MStats K) : Nat → List (PMatch K) → K × K → Res (List (PMatch K) × (K × K))
  | 0, cs, d => .ok (cs, d)
  | _ + 1, [], _ => .ub
  | n + 1, c :: cs, d => do
    let x := (c.x.1 - st.m.1, c.x.2 - st.m.2)
    let xp := (c.xp.1 - st.mp.1, c.xp.2 - st.mp.2)
    let r ← centreLoop sqrt st n cs (d.1 + sqrt (x.1 * x.1 + x.2 * x.2), d.2 + sqrt (xp.1 * xp.1 + xp.2 * xp.2))
    pure ({ c with x := x, xp := xp } :: r.1, r.2)

/-- A loop that changes the first `n` elements of the array one by one. -/
def mapLoop (f : PMatch K → PMatch K) : Nat → List (PMatch K) → Res (List (PMatch K))
  | 0, cs => .ok cs
  | _ + 1, [] => .ub
  | n + 1, c :: cs => do
    let r ← mapLoop f n cs
    pure (f c :: r)

/-- The body of the third loop, `src/nx_point_match_2d_stats.c:88-96`. -/
def scaleMatch (st : MStats K) (c : PMatch K) : PMatch K :=
  { c with
    x := (c.x.1 / st.d, c.x.2 / st.d)
    xp := (c.xp.1 / st.dp, c.xp.2 / st.dp)
    sigmaX := c.sigmaX / st.d
    sigmaXp := c.sigmaXp / st.dp }

/-- `nx_point_match_2d_stats_normalize_matches`, `src/nx_point_match_2d_stats.c:55-97`: the statistics and the array
afterwards; `none` if there is a division by zero, which leaves infinities or NaNs in one of the two. -/
def normalizeMatches [DecidableEq K] (sqrt : K → K) (n : Int) (corr : List (PMatch K)) :
    Res (Option (MStats K × List (PMatch K))) := do
  let st ← sumLoop n.toNat corr ⟨(0, 0), (0, 0), 0, 0⟩
  if n = 0 then pure none
  else do
    let k : K := (n : K)
    let st := { st with
      m := (st.m.1 / k, st.m.2 / k)
      mp := (st.mp.1 / k, st.mp.2 / k) }
    let r ← centreLoop sqrt st n.toNat corr (0, 0)
    let st := { st with
      d := r.2.1 / k
      dp := r.2.2 / k }
    if 0 < n ∧ (st.d = 0 ∨ st.dp = 0) then pure none
    else do
      let corr ← mapLoop (scaleMatch st) n.toNat r.1
      pure (some (st, corr))

/-- The body of the loop of `nx_point_match_2d_stats_denormalize_matches`, `src/nx_point_match_2d_stats.c:103-111`. -/
def unscaleMatch (st : MStats K) (c : PMatch K) : PMatch K :=
  { c with
    x := (st.d * c.x.1 + st.m.1, st.d * c.x.2 + st.m.2)
    xp := (st.dp * c.xp.1 + st.mp.1, st.dp * c.xp.2 + st.mp.2)
    sigmaX := c.sigmaX * st.d
    sigmaXp := c.sigmaXp * st.dp }

/-- `nx_point_match_2d_stats_denormalize_matches`, `src/nx_point_match_2d_stats.c:99-112`. -/
def denormalizeMatches (st : MStats K) (n : Int) (corr : List (PMatch K)) : Res (List (PMatch K)) :=
  mapLoop (unscaleMatch st) n.toNat corr

/-- `nx_point_match_2d_stats_denormalize_homography`, `src/nx_point_match_2d_stats.c:114-146`: `h` afterwards. -/
def denormalizeHomography (st : MStats K) (h : M3 K) : M3 K :=
  let sx := 1 / st.d
  let sxp := 1 / st.dp
  let tx := -st.m.1 * sx
  let ty := -st.m.2 * sx
  let txp := -st.mp.1 * sxp
  let typ := -st.mp.2 * sxp
  let t0 := (h.e0 - h.e2 * txp) * st.dp
  let t1 := (h.e1 - h.e2 * typ) * st.dp
  let t2 := (h.e3 - h.e5 * txp) * st.dp
  let t3 := (h.e4 - h.e5 * typ) * st.dp
  { e0 := sx * t0
    e1 := sx * t1
    e2 := sx * h.e2
    e3 := sx * t2
    e4 := sx * t3
    e5 := sx * h.e5
    e6 := tx * t0 + ty * t2 + h.e6 * st.dp - h.e8 * txp * st.dp
    e7 := tx * t1 + ty * t3 + h.e7 * st.dp - h.e8 * typ * st.dp
    e8 := h.e8 + tx * h.e2 + ty * h.e5 }

/-- `nx_point_match_2d_stats_denormalize_fundamental`, `src/nx_point_match_2d_stats.c:148-180`: `f` afterwards. -/
def denormalizeFundamental (st : MStats K) (f : M3 K) : M3 K :=
  let sx := 1 / st.d
  let sxp := 1 / st.dp
  let tx := -st.m.1 * sx
  let ty := -st.m.2 * sx
  let txp := -st.mp.1 * sxp
  let typ := -st.mp.2 * sxp
  let FT : M3 K :=
    { e0 := f.e0 * sx
      e1 := f.e1 * sx
      e2 := f.e2 * sx
      e3 := f.e3 * sx
      e4 := f.e4 * sx
      e5 := f.e5 * sx
      e6 := f.e0 * tx + f.e3 * ty + f.e6
      e7 := f.e1 * tx + f.e4 * ty + f.e7
      e8 := f.e2 * tx + f.e5 * ty + f.e8 }
  { e0 := sxp * FT.e0
    e1 := sxp * FT.e1
    e2 := txp * FT.e0 + typ * FT.e1 + FT.e2
    e3 := sxp * FT.e3
    e4 := sxp * FT.e4
    e5 := txp * FT.e3 + typ * FT.e4 + FT.e5
    e6 := sxp * FT.e6
    e7 := sxp * FT.e7
    e8 := txp * FT.e6 + typ * FT.e7 + FT.e8 }

end

end Nx
