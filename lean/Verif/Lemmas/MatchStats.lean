import Verif.Lemmas.Mark
import Verif.Model.MatchStats

/-!
# Lemmas on the normalisation of matches
-/

namespace Nx

section
variable {K : Type} [Field K]

theorem sumLoop_ok : ∀ (n : Nat) (corr : List (PMatch K)) (st : MStats K), n ≤ corr.length →
    sumLoop n corr st = .ok
      { st with
        m := (st.m.1 + ((corr.take n).map fun c => c.x.1).sum, st.m.2 + ((corr.take n).map fun c => c.x.2).sum)
        mp := (st.mp.1 + ((corr.take n).map fun c => c.xp.1).sum, st.mp.2 + ((corr.take n).map fun c => c.xp.2).sum) }
  | 0, corr, st, _ => by simp [sumLoop]
  | n + 1, [], _, h => by simp at h
  | n + 1, c :: cs, st, h => by
    simp only [sumLoop]
    rw [sumLoop_ok n cs _ (by simpa using h)]
    simp [add_assoc]

/-- The match after the centring loop. -/
def centreMatch (st : MStats K) (c : PMatch K) : PMatch K :=
  { c with
    x := (c.x.1 - st.m.1, c.x.2 - st.m.2)
    xp := (c.xp.1 - st.mp.1, c.xp.2 - st.mp.2) }

theorem centreLoop_ok (sqrt : K → K) (st : MStats K) : ∀ (n : Nat) (corr : List (PMatch K)) (d : K × K),
    n ≤ corr.length →
    centreLoop sqrt st n corr d = .ok ((corr.take n).map (centreMatch st) ++ corr.drop n,
      (d.1 + ((corr.take n).map fun c => sqrt ((c.x.1 - st.m.1) * (c.x.1 - st.m.1)
          + (c.x.2 - st.m.2) * (c.x.2 - st.m.2))).sum,
        d.2 + ((corr.take n).map fun c => sqrt ((c.xp.1 - st.mp.1) * (c.xp.1 - st.mp.1)
          + (c.xp.2 - st.mp.2) * (c.xp.2 - st.mp.2))).sum))
  | 0, corr, st, _ => by simp [centreLoop]
  | n + 1, [], _, h => by simp at h
  | n + 1, c :: cs, d, h => by
    simp only [centreLoop]
    rw [centreLoop_ok sqrt st n cs _ (by simpa using h)]
    simp [add_assoc, centreMatch]

omit [Field K] in
theorem mapLoop_ok (f : PMatch K → PMatch K) : ∀ (n : Nat) (corr : List (PMatch K)), n ≤ corr.length →
    mapLoop f n corr = .ok ((corr.take n).map f ++ corr.drop n)
  | 0, corr, _ => by simp [mapLoop]
  | n + 1, [], h => by simp at h
  | n + 1, c :: cs, h => by
    simp only [mapLoop]
    rw [mapLoop_ok f n cs (by simpa using h)]
    simp

/-- The match after normalisation with given statistics. -/
def normMatch (st : MStats K) (c : PMatch K) : PMatch K :=
  { c with
    x := ((c.x.1 - st.m.1) / st.d, (c.x.2 - st.m.2) / st.d)
    xp := ((c.xp.1 - st.mp.1) / st.dp, (c.xp.2 - st.mp.2) / st.dp)
    sigmaX := c.sigmaX / st.d
    sigmaXp := c.sigmaXp / st.dp }

/-- The statistics. -/
def statsOf (sqrt : K → K) (k : K) (cs : List (PMatch K)) : MStats K :=
  let m := ((cs.map fun c => c.x.1).sum / k, (cs.map fun c => c.x.2).sum / k)
  let mp := ((cs.map fun c => c.xp.1).sum / k, (cs.map fun c => c.xp.2).sum / k)
  { m := m
    mp := mp
    d := (cs.map fun c => sqrt ((c.x.1 - m.1) * (c.x.1 - m.1) + (c.x.2 - m.2) * (c.x.2 - m.2))).sum / k
    dp := (cs.map fun c => sqrt ((c.xp.1 - mp.1) * (c.xp.1 - mp.1) + (c.xp.2 - mp.2) * (c.xp.2 - mp.2))).sum / k }

variable [DecidableEq K]

theorem normalizeMatches_eq (sqrt : K → K) (n : Nat) (hn : 0 < n) (corr : List (PMatch K)) (hc : n ≤ corr.length) :
    normalizeMatches sqrt n corr =
      .ok (if (statsOf sqrt (n : K) (corr.take n)).d = 0 ∨ (statsOf sqrt (n : K) (corr.take n)).dp = 0 then none
        else some (statsOf sqrt (n : K) (corr.take n),
          (corr.take n).map (normMatch (statsOf sqrt (n : K) (corr.take n))) ++ corr.drop n)) := by
  unfold normalizeMatches
  rw [Int.toNat_natCast, sumLoop_ok _ _ _ hc]
  have h0 : ¬ (n : Int) = 0 := by omega
  simp only [Res.ok_bind, if_neg h0, zero_add]
  rw [centreLoop_ok _ _ _ _ _ hc]
  have h1 : (0 : Int) < n := by omega
  have hlen : ((corr.take n).map (centreMatch
      { (statsOf sqrt (n : K) (corr.take n)) with d := 0, dp := 0 })).length = n := by simp [hc]
  simp only [Res.ok_bind, zero_add, h1, true_and, Int.cast_natCast]
  by_cases hd : (statsOf sqrt (n : K) (corr.take n)).d = 0 ∨ (statsOf sqrt (n : K) (corr.take n)).dp = 0
  · rw [if_pos hd]
    simp only [statsOf] at hd
    rw [if_pos hd]
    rfl
  · rw [if_neg hd]
    simp only [statsOf] at hd
    rw [if_neg hd, mapLoop_ok _ _ _ (by simp [hc])]
    simp only [statsOf] at hlen
    simp only [Res.ok_bind, Res.pure_eq, statsOf]
    rw [List.take_append_of_le_length hlen.ge, List.take_of_length_le hlen.le, List.drop_append_of_le_length hlen.ge,
      List.drop_of_length_le hlen.le, List.map_map, List.nil_append]
    rfl

end

end Nx
