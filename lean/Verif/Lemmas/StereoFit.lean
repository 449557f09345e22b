import Verif.Model.StereoFit
import Verif.Props.HomRansac
import Verif.Props.MatchStats

/-! # Lemmas about the estimation of a homography by the stereo matcher -/

namespace Nx

theorem readAt_set {α : Type} {l : List α} {i : Nat} (h : i < l.length) (x : α) : readAt (l.set i x) i = .ok x := by
  rw [readAt_ok (by simpa using h), List.getElem_set_self]

theorem resBind_assoc {α β γ : Type} (x : Res α) (f : α → Res β) (g : β → Res γ) :
    ((x >>= f) >>= g) = (x >>= fun a => f a >>= g) := by
  cases x <;> rfl

section
variable {K : Type} [Field K] [DecidableEq K]

/-- The normalisation of an object. -/
theorem normalizeCorr_eq (sqrt : K → K) {w : CorrWorld K} {i : Nat} {o : CorrObj K} (hi : w.objs[i]? = some o)
    (hs : o.st < w.heap.length) :
    normalizeCorr sqrt w i = (normalizeMatches sqrt (o.ms.length : Int) o.ms).bind fun
      | none => .ok none
      | some r => .ok (some ⟨w.heap.set o.st r.1, w.objs.set i ⟨o.st, r.2⟩⟩) := by
  obtain ⟨hl, e⟩ := List.getElem?_eq_some_iff.mp hi
  have hr : readAt w.objs i = .ok o := by rw [readAt_ok hl, e]
  unfold normalizeCorr
  rw [hr, Res.ok_bind]
  cases hn : normalizeMatches sqrt (o.ms.length : Int) o.ms with
  | fatal => rfl
  | ub => rfl
  | ok r =>
    cases r with
    | none => rfl
    | some r =>
      simp only [Res.ok_bind, storeNorm, withBoth, hr]
      rw [writeAt_ok _ hs, Res.ok_bind, writeAt_ok _ hl, Res.ok_bind]
      rfl
end

section
variable {K : Type} [Field K]

/-- Storing the matches and denormalising the object. -/
theorem storeDenormalize_eq {w : CorrWorld K} {i : Nat} {o : CorrObj K} (hi : i < w.objs.length)
    (hs : o.st < w.heap.length) (st : MStats K) (ms ms' : List (PMatch K)) :
    (do
      let w ← withMatches ⟨w.heap.set o.st st, w.objs.set i ⟨o.st, ms⟩⟩ i fun _ => .ok ms'
      denormalizeCorr w i) =
    (do
      let r ← denormalizeMatches st (ms'.length : Int) ms'
      .ok ⟨w.heap.set o.st statsReset, w.objs.set i ⟨o.st, r⟩⟩) := by
  have h1 : i < (w.objs.set i ⟨o.st, ms⟩).length := by simpa using hi
  unfold withMatches
  simp only
  rw [readAt_set hi, Res.ok_bind, Res.ok_bind, writeAt_ok _ h1, Res.ok_bind, List.set_set]
  simp only [Res.pure_eq, Res.ok_bind]
  unfold denormalizeCorr
  simp only
  rw [readAt_set hi, Res.ok_bind]
  simp only
  rw [readAt_set hs, Res.ok_bind]
  cases hd : denormalizeMatches st (ms'.length : Int) ms' with
  | fatal => rfl
  | ub => rfl
  | ok r =>
    simp only [Res.ok_bind, withBoth]
    rw [readAt_set hi, Res.ok_bind]
    simp only
    rw [writeAt_ok _ (by simpa using hs), Res.ok_bind, writeAt_ok _ (by simpa using hi), Res.ok_bind, List.set_set, List.set_set]
    rfl

end

variable {svd : List (Fin 9 → ℝ) → (Fin 9 → Fin 9 → ℝ) × List ℝ} {qsort : List (PMatch ℝ) → List (PMatch ℝ)}

/-- The number of matches is kept. -/
theorem homographyRansac_length (hq : ∀ l, (qsort l).Perm l) {m : ℝ} {h : M3 ℝ} {n : Nat} {corr : List (PMatch ℝ)} (hn : n ≤ corr.length)
    {tol : ℝ} {maxIter : Int} {rnd : List (BitVec 32)} {o : ROut ℝ}
    (he : homographyRansac svd qsort m h n corr tol maxIter rnd = .ok (.done o)) : o.corr.length = corr.length := by
  by_cases h4 : 4 ≤ n
  · exact (c71_result hq m h n h4 corr hn tol maxIter rnd o he).1.length
  · rw [c71_few m h n (by omega)] at he
    cases he
    rfl

theorem normalizeMatches_length {n : Nat} {corr corr' : List (PMatch ℝ)} (hn : n ≤ corr.length) {st : MStats ℝ}
    (h : normalizeMatches Real.sqrt n corr = .ok (some (st, corr'))) : corr'.length = corr.length := by
  by_cases h0 : 0 < n
  · exact (normalizeMatches_take h0 hn h).2.2
  · have : n = 0 := by omega
    subst this
    rw [Nat.cast_zero, c65_empty] at h
    cases h

/-- The first estimation is the estimation with normalisation of C71. -/
theorem initial_eq (hq : ∀ l, (qsort l).Perm l) (m : ℝ) (h : M3 ℝ) {w : CorrWorld ℝ} {i : Nat} {o : CorrObj ℝ}
    (hi : w.objs[i]? = some o) (hs : o.st < w.heap.length) (rnd : List (BitVec 32)) :
    initialHomography Real.sqrt svd qsort m h w i rnd =
      (homographyNormRansac Real.sqrt svd qsort m h (o.ms.length : Int) o.ms 3 10000 rnd).bind fun
        | .starved => .ok .starved
        | .nan => .ok .nan
        | .done r => .ok (.done (⟨w.heap.set o.st statsReset, w.objs.set i ⟨o.st, r.corr⟩⟩, r.h, r.count)) := by
  obtain ⟨hl, e⟩ := List.getElem?_eq_some_iff.mp hi
  unfold initialHomography homographyNormRansac
  rw [normalizeCorr_eq Real.sqrt hi hs]
  cases hn : normalizeMatches Real.sqrt (o.ms.length : Int) o.ms with
  | fatal => rfl
  | ub => rfl
  | ok r =>
    cases r with
    | none => rfl
    | some r =>
      obtain ⟨st, ms⟩ := r
      have hlen := normalizeMatches_length le_rfl hn
      simp only [Res.bind]
      rw [readAt_set hl, Res.ok_bind]
      simp only
      rw [readAt_set hs, Res.ok_bind, hlen]
      cases hr : homographyRansac svd qsort m h (o.ms.length : Int) ms (3 / st.dp) 10000 rnd with
      | fatal => rfl
      | ub => rfl
      | ok q =>
        cases q with
        | starved => rfl
        | nan => rfl
        | done q =>
          have hql := homographyRansac_length hq hlen.ge hr
          simp only [Res.ok_bind]
          have key := storeDenormalize_eq (w := w) (i := i) (o := o) hl hs st ms q.corr
          rw [hql, hlen] at key
          cases hd : denormalizeMatches st (o.ms.length : Int) q.corr with
          | fatal =>
            rw [hd] at key
            rw [← resBind_assoc, key]
            rfl
          | ub =>
            rw [hd] at key
            rw [← resBind_assoc, key]
            rfl
          | ok d =>
            rw [hd] at key
            rw [← resBind_assoc, key]
            rfl

theorem res_bind_do {α β : Type} (x : Res α) (f : α → Res β) : Res.bind x f = (x >>= f) := rfl

/-- The second estimation. -/
theorem guided_eq (h : M3 ℝ) {w : CorrWorld ℝ} {i : Nat} {o : CorrObj ℝ} (hi : w.objs[i]? = some o) (hs : o.st < w.heap.length) :
    guidedHomography Real.sqrt svd h w i =
      (normalizeMatches Real.sqrt (o.ms.length : Int) o.ms).bind fun
        | none => .ok .nan
        | some r => (estimateDltInliers svd h (o.ms.length : Int) r.2).bind fun e =>
          (markInliers (denormalizeHomography r.1 e.1) (o.ms.length : Int) o.ms 3).bind fun q =>
            .ok (.done (⟨w.heap.set o.st statsReset, w.objs.set i ⟨o.st, q.1⟩⟩, denormalizeHomography r.1 e.1, q.2)) := by
  obtain ⟨hl, e⟩ := List.getElem?_eq_some_iff.mp hi
  unfold guidedHomography
  rw [normalizeCorr_eq Real.sqrt hi hs]
  cases hn : normalizeMatches Real.sqrt (o.ms.length : Int) o.ms with
  | fatal => rfl
  | ub => rfl
  | ok r =>
    cases r with
    | none => rfl
    | some r =>
      obtain ⟨st, ms⟩ := r
      have hlen := normalizeMatches_length le_rfl hn
      have h0 : 0 < o.ms.length := by
        by_contra h0
        rw [show o.ms.length = 0 by omega, Nat.cast_zero, c65_empty] at hn
        cases hn
      have hpos := normalize_pos h0 le_rfl hn
      simp only [Res.bind]
      rw [readAt_set hl, Res.ok_bind]
      simp only
      rw [readAt_set hs, Res.ok_bind, hlen]
      cases he : estimateDltInliers svd h (o.ms.length : Int) ms with
      | fatal => rfl
      | ub => rfl
      | ok a =>
        simp only [Res.ok_bind]
        have key := c65_inliers Real.sqrt o.ms.length h0 o.ms ms le_rfl st hn hpos.2 a.1 3
        rw [← key]
        cases hm : markInliers a.1 (o.ms.length : Int) ms (3 / st.dp) with
        | fatal => rfl
        | ub => rfl
        | ok q =>
          have hql : q.1.length = o.ms.length := by
            unfold markInliers at hm
            rw [Int.toNat_natCast, markLoop_ok _ _ _ _ hlen.ge] at hm
            cases hm
            simp [marked, hlen]
          have key2 := storeDenormalize_eq (w := w) (i := i) (o := o) hl hs st ms q.1
          rw [hql] at key2
          simp only [Res.ok_bind]
          rw [← resBind_assoc, key2]
          cases hd : denormalizeMatches st (o.ms.length : Int) q.1 <;> rfl

end Nx
