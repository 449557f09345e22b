import Verif.Lemmas.UsacHomography

/-!
# C97: estimation of homographies with USAC
-/

namespace Nx

variable {svd : List (Fin 9 → ℝ) → (Fin 9 → Fin 9 → ℝ) × List ℝ} {qsort : List (PMatch ℝ) → List (PMatch ℝ)}

/-- With less than four matches nothing is changed and zero is returned. -/
theorem c97_few (m : ℝ) (undef : Option Int) (h : M3 ℝ) (n : Int) (hn : n < 4) (corr : List (PMatch ℝ)) (tol : ℝ) (maxIter : Int)
    (rnd : List (BitVec 32)) : usacHomography svd qsort m undef h n corr tol maxIter rnd = .ok (.done ⟨h, corr, 0, []⟩) := by
  rw [usacHomography, if_pos hn]

/-- The matches and the random numbers at the beginning. -/
def uStart (qsort : List (PMatch ℝ) → List (PMatch ℝ)) (n : Nat) (corr : List (PMatch ℝ)) (rnd : List (BitVec 32)) : UData ℝ :=
  ⟨sorted0 qsort n corr, if 10 > n then n else 10, 0, rnd⟩

theorem usacHomography_eq (m : ℝ) (undef : Option Int) (h : M3 ℝ) (n : Nat) (h4 : 4 ≤ n) (corr : List (PMatch ℝ))
    (hn : n ≤ corr.length) (tol : ℝ) (maxIter : Int) (rnd : List (BitVec 32)) :
    ∃ r, usacLoop (usacHConfig svd m n tol maxIter undef) (maxIter.toNat + 1) (0, 0, 0, 0)
        ⟨.ok (.done (uStart qsort n corr rnd)), zeroModel, none, [], []⟩ = some r ∧
      usacHomography svd qsort m undef h n corr tol maxIter rnd =
        (usacFinish (usacHConfig svd m n tol maxIter undef) r.1 r.2).data.bind fun
          | .done d => (markInliers (usacFinish (usacHConfig svd m n tol maxIter undef) r.1 r.2).best n d.corr tol).bind fun k =>
            .ok (.done ⟨(usacFinish (usacHConfig svd m n tol maxIter undef) r.1 r.2).best, k.1,
              if homographyCheck (usacFinish (usacHConfig svd m n tol maxIter undef) r.1 r.2).best m then k.2 else 0,
              ((usacFinish (usacHConfig svd m n tol maxIter undef) r.1 r.2).calls.map fun e => e.model).dropLast⟩)
          | .starved => .ok .starved
          | .nan => .ok .nan := by
  have he := usacHLoop_ends (svd := svd) (m := m) (n := n) (tol := tol) (maxIter := maxIter) (undef := undef) (maxIter.toNat + 1)
    (0, 0, 0, 0) ⟨.ok (.done (uStart qsort n corr rnd)), zeroModel, none, [], []⟩ (by omega) (by
      intro d hd
      cases hd
      simp only [uStart]
      omega)
  obtain ⟨r, hr⟩ := Option.ne_none_iff_exists'.mp he
  refine ⟨r, hr, ?_⟩
  rw [usacHomography, if_neg (by omega), Int.toNat_natCast, sortFirst, if_pos hn]
  have hu : usac (usacHConfig svd m n tol maxIter undef) (maxIter.toNat + 1) zeroModel none (0, 0, 0, 0)
      (.ok (.done ⟨qsort (List.take n corr) ++ List.drop n corr, if 10 > n then n else 10, 0, rnd⟩))
      = some (usacFinish (usacHConfig svd m n tol maxIter undef) r.1 r.2) := by
    have hr' : usacLoop (usacHConfig svd m n tol maxIter undef) (maxIter.toNat + 1) (0, 0, 0, 0)
        ⟨.ok (.done ⟨qsort (List.take n corr) ++ List.drop n corr, if 10 > n then n else 10, 0, rnd⟩), zeroModel, none, [], []⟩
        = some r := hr
    rw [usac, hr']
    rfl
  simp only [Res.bind, hu]
  generalize usacFinish (usacHConfig svd m n tol maxIter undef) r.1 r.2 = S
  cases S.data with
  | fatal => rfl
  | ub => rfl
  | ok a => cases a <;> rfl

/-- The main loop always ends, whatever the callbacks meet: after less than `maxIter` hypotheses. -/
theorem c97_ends (m : ℝ) (undef : Option Int) (n : Nat) (corr : List (PMatch ℝ)) (tol : ℝ) (maxIter : Int) (rnd : List (BitVec 32)) :
    usac (usacHConfig svd m n tol maxIter undef) (maxIter.toNat + 1) zeroModel none (0, 0, 0, 0)
      (.ok (.done ⟨corr, if 10 > n then n else 10, 0, rnd⟩)) ≠ none := by
  have he := usacHLoop_ends (svd := svd) (m := m) (n := n) (tol := tol) (maxIter := maxIter) (undef := undef) (maxIter.toNat + 1)
    (0, 0, 0, 0) ⟨.ok (.done ⟨corr, if 10 > n then n else 10, 0, rnd⟩), zeroModel, none, [], []⟩ (by omega) (by
      intro d hd
      cases hd
      simp only
      omega)
  rw [usac]
  simpa using he

/-- Every call with at least four matches is undefined: the first test for termination converts the score of no model,
`-DBL_MAX`, to `int`. -/
theorem c97_undefined (m : ℝ) (h : M3 ℝ) (n : Nat) (h4 : 4 ≤ n) (corr : List (PMatch ℝ)) (hn : n ≤ corr.length) (tol : ℝ)
    (maxIter : Int) (rnd : List (BitVec 32)) : usacHomography svd qsort m none h n corr tol maxIter rnd = .ub := by
  obtain ⟨r, hr, he⟩ := usacHomography_eq (svd := svd) (qsort := qsort) m none h n h4 corr hn tol maxIter rnd
  rw [he]
  rw [usacHLoop_succ] at hr
  have ht : usacHTerminate n maxIter none none (.ok (.done (uStart qsort n corr rnd)) : UOutcome ℝ) = (true, .ub) := rfl
  simp only [ht, if_true, Option.some.injEq] at hr
  subst hr
  rfl

theorem score_zero {tol : ℝ} {n : Nat} {c0 : List (PMatch ℝ)} : score (hTest tol zeroModel) n c0 = 0 := by
  rw [score, List.length_eq_zero_iff, List.filter_eq_nil_iff]
  intro c _
  simp [hTest, transferFwd, zeroModel, closeTo]

section
variable {m tol : ℝ} {n : Nat} {maxIter : Int} {undef : Option Int} {c0 : List (PMatch ℝ)} {rnd0 : List (BitVec 32)}

/-- The refinement with all inliers. -/
theorem usacHGlobal_done {g : M3 ℝ} {d : UData ℝ} (hn : 0 < n) (h0 : n ≤ c0.length) (hs : unmark n d.corr = unmark n c0) :
    ∃ g', usacHGlobal svd n tol g (.ok (.done d)) = (g', .ok (.done { d with corr := markAll (hTest tol g') n c0 })) ∧
      ((g' = g ∧ score (hTest tol g) n c0 ≤ 6) ∨
        (7 ≤ score (hTest tol g) n c0 ∧ ∃ h1, score (hTest tol g) n c0 ≤ score (hTest tol h1) n c0 ∧
          hRefit svd n h1 (markAll (hTest tol h1) n c0) = .ok g')) := by
  obtain ⟨g', e, hh⟩ := refineLoop_spec (hTest_blind tol) h0 (fun h => hRefit_markAll (svd := svd) (hTest tol h) n c0 h0 h) (n + 1) g 1
    hn (by omega)
  have hm := mark_of_unmark (hTest_blind tol g) h0 hs
  by_cases h6 : score (hTest tol g) n c0 ≤ 6
  · refine ⟨g, ?_, .inl ⟨rfl, h6⟩⟩
    unfold usacHGlobal
    apply withData_done
    simp only [markInliers, Int.toNat_natCast]
    change (markLoop (hTest tol g) n d.corr 0).bind _ = _
    rw [hm]
    simp only [Res.bind]
    rw [refineLoop, if_neg (by omega)]
  · refine ⟨g', ?_, .inr ⟨by omega, ?_⟩⟩
    · unfold usacHGlobal
      apply withData_done
      simp only [markInliers, Int.toNat_natCast]
      change (markLoop (hTest tol g) n d.corr 0).bind _ = _
      rw [hm]
      simp only [Res.bind]
      change Res.bind (refineLoop (fun h corr => markLoop (hTest tol h) n corr 0) (hRefit svd n) (n + 1) g _ _ 1) _ = _
      rw [e]
      rfl
    · rcases hh with ⟨-, h⟩ | ⟨h1, a, b, c, -⟩
      · omega
      · exact ⟨h1, a, c⟩

/-- The end of the estimation. -/
theorem usacHFinish_done {s : UsacState (UOutcome ℝ) (M3 ℝ) (Option Nat)} {ids : Nat × Nat × Nat × Nat} {d : UData ℝ} (hn : 0 < n)
    (h0 : n ≤ c0.length) (hd : s.data = .ok (.done d)) (hs : unmark n d.corr = unmark n c0) :
    ∃ g', ((g' = s.best ∧ score (hTest tol s.best) n c0 ≤ 6) ∨
        (7 ≤ score (hTest tol s.best) n c0 ∧ ∃ h1, score (hTest tol s.best) n c0 ≤ score (hTest tol h1) n c0 ∧
          hRefit svd n h1 (markAll (hTest tol h1) n c0) = .ok g')) ∧
      (usacFinish (usacHConfig svd m n tol maxIter undef) ids s).data = .ok (.done { d with corr := markAll (hTest tol g') n c0 }) ∧
      (usacFinish (usacHConfig svd m n tol maxIter undef) ids s).calls = s.calls ++ [⟨g', some (score (hTest tol g') n c0), false, true⟩] ∧
      (((usacHConfig svd m n tol maxIter undef).gt (some (score (hTest tol g') n c0)) s.bestScore = true ∧
          (usacFinish (usacHConfig svd m n tol maxIter undef) ids s).best = g') ∨
        ((usacHConfig svd m n tol maxIter undef).gt (some (score (hTest tol g') n c0)) s.bestScore = false ∧
          (usacFinish (usacHConfig svd m n tol maxIter undef) ids s).best = s.best)) := by
  obtain ⟨g', e, hh⟩ := usacHGlobal_done (svd := svd) (tol := tol) (g := s.best) hn h0 hs
  have hsc := usacHScore_done (tol := tol) (g := g') (d := { d with corr := markAll (hTest tol g') n c0 }) h0 (unmark_markAll h0)
  refine ⟨g', hh, ?_⟩
  have hg : (usacHConfig svd m n tol maxIter undef).globalRefinement s.best s.data
      = (g', .ok (.done { d with corr := markAll (hTest tol g') n c0 })) := by
    rw [hd]; exact e
  have hsc' : ∀ ids, (usacHConfig svd m n tol maxIter undef).score g' ids
      (.ok (.done { d with corr := markAll (hTest tol g') n c0 })) =
        (some (score (hTest tol g') n c0), .ok (.done { d with corr := markAll (hTest tol g') n c0 })) := fun _ => hsc
  unfold usacFinish
  simp only [hg, hsc']
  cases hgt : (usacHConfig svd m n tol maxIter undef).gt (some (score (hTest tol g') n c0)) s.bestScore with
  | true => exact ⟨rfl, rfl, .inl ⟨rfl, rfl⟩⟩
  | false => exact ⟨rfl, rfl, .inr ⟨rfl, rfl⟩⟩

theorem uStart_inv (corr : List (PMatch ℝ)) (rnd : List (BitVec 32)) :
    ∀ d, (⟨.ok (.done (uStart qsort n corr rnd)), zeroModel, none, [], []⟩ : UsacState (UOutcome ℝ) (M3 ℝ) (Option Nat)).data
      = .ok (.done d) → UInv m tol n maxIter (sorted0 qsort n corr) rnd
        ⟨.ok (.done (uStart qsort n corr rnd)), zeroModel, none, [], []⟩ d := by
  intro d hd
  cases hd
  refine ⟨rfl, ?_, fun v hv => hv, by simp, by simp, by simp⟩
  simp only [uStart]
  split <;> omega

end

/-- What is known of a run that ends. -/
theorem usacH_run (hq : ∀ l, (qsort l).Perm l) {m : ℝ} {undef : Option Int} {h : M3 ℝ} {n : Nat} (h4 : 4 ≤ n)
    {corr : List (PMatch ℝ)} (hn : n ≤ corr.length) {tol : ℝ} {maxIter : Int} {rnd : List (BitVec 32)} {o : ROut ℝ}
    (he : usacHomography svd qsort m undef h n corr tol maxIter rnd = .ok (.done o)) :
    o.corr = markAll (hTest tol o.h) n (sorted0 qsort n corr) ∧
    o.count = (if homographyCheck o.h m then score (hTest tol o.h) n (sorted0 qsort n corr) else 0) ∧
    o.hyps.length ≤ (maxIter - 1).toNat ∧
    ∃ ids s d, usacLoop (usacHConfig svd m n tol maxIter undef) (maxIter.toNat + 1) (0, 0, 0, 0)
        ⟨.ok (.done (uStart qsort n corr rnd)), zeroModel, none, [], []⟩ = some (ids, s) ∧
      s.data = .ok (.done d) ∧ o.hyps = s.calls.map (fun e => e.model) ∧
      (∀ e ∈ s.calls, UHyp m tol n (sorted0 qsort n corr) rnd e) ∧
      ∃ g', ((g' = s.best ∧ score (hTest tol s.best) n (sorted0 qsort n corr) ≤ 6) ∨
          (7 ≤ score (hTest tol s.best) n (sorted0 qsort n corr) ∧
            ∃ h1, score (hTest tol s.best) n (sorted0 qsort n corr) ≤ score (hTest tol h1) n (sorted0 qsort n corr) ∧
            hRefit svd n h1 (markAll (hTest tol h1) n (sorted0 qsort n corr)) = .ok g')) ∧
        (((usacHConfig svd m n tol maxIter undef).gt (some (score (hTest tol g') n (sorted0 qsort n corr))) s.bestScore = true ∧
          o.h = g') ∨
        ((usacHConfig svd m n tol maxIter undef).gt (some (score (hTest tol g') n (sorted0 qsort n corr))) s.bestScore = false ∧
          o.h = s.best)) := by
  have hl : n ≤ (sorted0 qsort n corr).length := by rw [sorted0_length hq]; exact hn
  obtain ⟨⟨ids, s⟩, hr, heq⟩ := usacHomography_eq (svd := svd) (qsort := qsort) m undef h n h4 corr hn tol maxIter rnd
  rw [heq] at he
  simp only at he
  obtain ⟨x, hx, he⟩ := Res.bind_eq_ok.mp he
  cases x with
  | starved => cases he
  | nan => cases he
  | done d2 =>
    obtain ⟨d, hd⟩ : ∃ d, s.data = .ok (.done d) := by
      unfold usacFinish at hx
      simp only at hx
      have key : ((usacHConfig svd m n tol maxIter undef).score
          ((usacHConfig svd m n tol maxIter undef).globalRefinement s.best s.data).1 ids
          ((usacHConfig svd m n tol maxIter undef).globalRefinement s.best s.data).2).2 = .ok (.done d2) := by
        split at hx
        · exact hx
        · exact hx
      obtain ⟨d1, b, e1, -, -⟩ := withData_back key
      obtain ⟨d, b, e2, -, -⟩ := withData_back e1
      exact ⟨d, e2⟩
    have hinv := usacHLoop_inv (m := m) (tol := tol) (rnd0 := rnd) hl _ _ _ (uStart_inv corr rnd) _ hr d hd
    obtain ⟨g', q1, q2, q3, q4⟩ := usacHFinish_done (svd := svd) (m := m) (tol := tol) (maxIter := maxIter) (undef := undef)
      (ids := ids) (by omega) hl hd hinv.same
    rw [q2] at hx
    cases hx
    obtain ⟨k, k1, k2⟩ := Res.bind_eq_ok.mp he
    simp only [markInliers, Int.toNat_natCast] at k1
    have := mark_of_unmark (hTest_blind tol (usacFinish (usacHConfig svd m n tol maxIter undef) ids s).best) hl
      (unmark_markAll (test := hTest tol g') hl)
    change markLoop (hTest tol (usacFinish (usacHConfig svd m n tol maxIter undef) ids s).best) n
      (markAll (hTest tol g') n (sorted0 qsort n corr)) 0 = .ok k at k1
    rw [this] at k1
    cases k1
    cases k2
    have hcalls : ((usacFinish (usacHConfig svd m n tol maxIter undef) ids s).calls.map (fun e => e.model)).dropLast
        = s.calls.map (fun e => e.model) := by
      rw [q3, List.map_append]
      exact List.dropLast_concat
    refine ⟨rfl, rfl, ?_, ids, s, d, hr, hd, hcalls, hinv.hyps, g', q1, q4⟩
    simp only
    rw [hcalls, List.length_map]
    exact hinv.iter

/-- What `nx_usac_estimate_homography` leaves: the first `n` matches are permuted, and marked iff the returned homography
takes their point to less than the tolerance from the other one; the number of marks is returned if the homography passes the
check, else zero. -/
theorem c97_result_partial (hq : ∀ l, (qsort l).Perm l) (m : ℝ) (undef : Option Int) (h : M3 ℝ) (n : Nat) (h4 : 4 ≤ n)
    (corr : List (PMatch ℝ)) (hn : n ≤ corr.length) (tol : ℝ) (maxIter : Int) (rnd : List (BitVec 32)) (o : ROut ℝ)
    (he : usacHomography svd qsort m undef h n corr tol maxIter rnd = .ok (.done o)) :
    MarkedBy (fun c => Within o.h.mat c.x c.xp (tol ^ 2)) n corr o.corr ∧
      nMarked n o.corr = nWith (fun c => Within o.h.mat c.x c.xp (tol ^ 2)) n corr ∧
      (homographyCheck o.h m = true → o.count = nMarked n o.corr) ∧ (homographyCheck o.h m = false → o.count = 0) := by
  have hl : n ≤ (sorted0 qsort n corr).length := by rw [sorted0_length hq]; exact hn
  obtain ⟨e1, e2, -, -⟩ := usacH_run hq h4 hn he
  rw [e1, e2]
  refine ⟨markAll_markedBy (hTest_blind tol o.h) (hTest_iff tol o.h) hq hn, ?_, ?_, ?_⟩
  · rw [nMarked_markAll hl, score_nWith (hTest_iff tol o.h) hq hn]
  · intro hc
    rw [if_pos hc, nMarked_markAll hl]
  · intro hc
    rw [hc]
    rfl

/-- The best hypothesis at the end of the loop. -/
theorem usacH_best {m : ℝ} {undef : Option Int} {n : Nat} {c0 : List (PMatch ℝ)} {tol : ℝ} {maxIter : Int} {rnd : List (BitVec 32)}
    {fuel : Nat} {d0 : UOutcome ℝ} {ids ids' : Nat × Nat × Nat × Nat} {s : UsacState (UOutcome ℝ) (M3 ℝ) (Option Nat)}
    (hr : usacLoop (usacHConfig svd m n tol maxIter undef) fuel ids ⟨d0, zeroModel, none, [], []⟩ = some (ids', s))
    (hh : ∀ e ∈ s.calls, UHyp m tol n c0 rnd e) :
    (s.calls = [] ∧ s.best = zeroModel ∧ s.bestScore = none) ∨
    (s.bestScore = some (score (hTest tol s.best) n c0) ∧ s.best ∈ s.calls.map (fun e => e.model) ∧
      ∀ g ∈ s.calls.map (fun e => e.model), score (hTest tol g) n c0 ≤ score (hTest tol s.best) n c0) := by
  have hi : UsacInv (usacHConfig svd m n tol maxIter undef).gt zeroModel none s :=
    usacLoop_inv (usacHConfig svd m n tol maxIter undef) (uGt_irrefl m tol n maxIter undef) (uGt_trans m tol n maxIter undef)
      fuel ids _ _ ⟨by simp, .inr ⟨rfl, rfl⟩, by simp, rfl, by simp⟩ hr
  have hrej : ∀ e ∈ s.calls, e.rejected = false := fun e he => (hh e he).kept
  rcases hi.own with ⟨e, e1, e2, e3, e4⟩ | ⟨e1, e2⟩
  · refine .inr ⟨?_, ?_, ?_⟩
    · rw [← e4, (hh e e1).score, e3]
    · rw [← e3]
      exact List.mem_map.mpr ⟨e, e1, rfl⟩
    · intro g hg
      obtain ⟨e', f1, rfl⟩ := List.mem_map.mp hg
      have := hi.max e' f1 (hrej e' f1)
      rw [(hh e' f1).score, ← e4, (hh e e1).score, e3] at this
      simpa [usacHConfig] using this
  · refine .inl ⟨?_, e1, e2⟩
    cases hc : s.calls with
    | nil => rfl
    | cons e l =>
      have hm : e ∈ s.calls := by rw [hc]; simp
      have := hi.max e hm (hrej e hm)
      rw [(hh e hm).score, e2] at this
      cases this

/-- The returned homography has at least as many inliers as every hypothesis, of which there are less than `maxIter`. It is one of
them, or one that minimises the algebraic error among the inliers of a homography that has at least as many inliers as all of them,
and then it has more than all of them, or zero without hypotheses. -/
theorem c97_best_partial (hs : SvdContract svd) (hq : ∀ l, (qsort l).Perm l) (m : ℝ) (undef : Option Int) (h : M3 ℝ) (n : Nat)
    (h4 : 4 ≤ n) (corr : List (PMatch ℝ)) (hn : n ≤ corr.length) (tol : ℝ) (maxIter : Int) (rnd : List (BitVec 32)) (o : ROut ℝ)
    (he : usacHomography svd qsort m undef h n corr tol maxIter rnd = .ok (.done o)) :
    o.hyps.length ≤ (maxIter - 1).toNat ∧
    (∀ g ∈ o.hyps, homographyCheck g m = true ∧ nWith (fun c => Within g.mat c.x c.xp (tol ^ 2)) n corr
        ≤ nWith (fun c => Within o.h.mat c.x c.xp (tol ^ 2)) n corr) ∧
    (o.h ∈ o.hyps ∨ (o.hyps = [] ∧ o.h = ⟨0, 0, 0, 0, 0, 0, 0, 0, 0⟩ ∧ o.count = 0) ∨
      ((∀ g ∈ o.hyps, nWith (fun c => Within g.mat c.x c.xp (tol ^ 2)) n corr
          < nWith (fun c => Within o.h.mat c.x c.xp (tol ^ 2)) n corr) ∧
        ∃ (h1 : M3 ℝ) (corr1 : List (PMatch ℝ)), MarkedBy (fun c => Within h1.mat c.x c.xp (tol ^ 2)) n corr corr1 ∧
          nMarked n corr1 = nWith (fun c => Within h1.mat c.x c.xp (tol ^ 2)) n corr ∧ 7 ≤ nMarked n corr1 ∧
          (∀ g ∈ o.hyps, nWith (fun c => Within g.mat c.x c.xp (tol ^ 2)) n corr ≤ nMarked n corr1) ∧
          frobSq o.h.mat = 1 ∧
          ∀ A, frobSq A = 1 → algError o.h.mat ((corr1.take n).filter fun c => c.inlier)
            ≤ algError A ((corr1.take n).filter fun c => c.inlier))) := by
  have hl : n ≤ (sorted0 qsort n corr).length := by rw [sorted0_length hq]; exact hn
  obtain ⟨e1, e2, e3, ids, s, d, hr, hd, hh, hy, g', q1, q2⟩ := usacH_run hq h4 hn he
  refine ⟨e3, ?_⟩
  have hsc : ∀ g : M3 ℝ, nWith (fun c => Within g.mat c.x c.xp (tol ^ 2)) n corr = score (hTest tol g) n (sorted0 qsort n corr) :=
    fun g => (score_nWith (hTest_iff tol g) hq hn).symm
  have hck : ∀ g ∈ o.hyps, homographyCheck g m = true := by
    intro g hg
    rw [hh] at hg
    obtain ⟨e, f1, rfl⟩ := List.mem_map.mp hg
    exact (hy e f1).check
  simp only [hsc]
  rcases usacH_best hr hy with ⟨b1, b2, b3⟩ | ⟨b1, b2, b3⟩
  · have hnil : o.hyps = [] := by rw [hh, b1]; rfl
    have hz : o.h = zeroModel := by
      rcases q1 with ⟨f1, -⟩ | ⟨f1, -⟩
      · rcases q2 with ⟨-, f2⟩ | ⟨-, f2⟩
        · rw [f2, f1, b2]
        · rw [f2, b2]
      · rw [b2, score_zero] at f1
        omega
    refine ⟨by rw [hnil]; simp, .inr (.inl ⟨hnil, hz, ?_⟩)⟩
    rw [e2, hz, score_zero]
    simp
  · have b2' : s.best ∈ o.hyps := by rw [hh]; exact b2
    have b3' : ∀ g ∈ o.hyps, score (hTest tol g) n (sorted0 qsort n corr) ≤ score (hTest tol s.best) n (sorted0 qsort n corr) := by
      intro g hg
      rw [hh] at hg
      exact b3 g hg
    rcases q2 with ⟨f1, f2⟩ | ⟨f1, f2⟩
    · rw [b1] at f1
      have f1' : score (hTest tol s.best) n (sorted0 qsort n corr) < score (hTest tol g') n (sorted0 qsort n corr) := by
        simpa [usacHConfig] using f1
      rw [f2]
      refine ⟨fun g hg => ⟨hck g hg, by have := b3' g hg; omega⟩, .inr (.inr ⟨fun g hg => by have := b3' g hg; omega, ?_⟩)⟩
      rcases q1 with ⟨k1, -⟩ | ⟨k1, h1, k2, k3⟩
      · rw [k1] at f1'
        omega
      · have hcl : (markAll (hTest tol h1) n (sorted0 qsort n corr)).length = (sorted0 qsort n corr).length := by
          have := congrArg List.length (unmark_markAll (test := hTest tol h1) hl)
          rwa [unmark_length, unmark_length] at this
        have hnm := nMarked_markAll (test := hTest tol h1) hl
        refine ⟨h1, markAll (hTest tol h1) n (sorted0 qsort n corr), markAll_markedBy (hTest_blind tol h1) (hTest_iff tol h1) hq hn,
          hnm, by omega, fun g hg => by have := b3' g hg; omega, ?_⟩
        rw [hRefit, c62_dlt_inliers _ _ _ (by omega)] at k3
        have hlen : (((markAll (hTest tol h1) n (sorted0 qsort n corr)).take n).filter fun c => c.inlier).length
            = nMarked n (markAll (hTest tol h1) n (sorted0 qsort n corr)) := by
          rw [nMarked, List.countP_eq_length_filter]
        obtain ⟨h', t, l1, l2, l3⟩ := c62_dlt hs h1
          (((markAll (hTest tol h1) n (sorted0 qsort n corr)).take n).filter fun c => c.inlier) (by omega)
        rw [l1] at k3
        cases k3
        exact ⟨l2, l3⟩
    · rw [f2]
      exact ⟨fun g hg => ⟨hck g hg, b3' g hg⟩, .inl b2'⟩

/-- Every hypothesis is the result of `nx_homography_estimate_4pt` for four different matches (if no random number is one of those
for which the sampler leaves its range): selections with a repeated match, which the sampler makes, are refused. -/
theorem c97_hyps_partial (hq : ∀ l, (qsort l).Perm l) (m : ℝ) (undef : Option Int) (h : M3 ℝ) (n : Nat) (h4 : 4 ≤ n)
    (h24 : n ≤ 16777216) (corr : List (PMatch ℝ)) (hn : n ≤ corr.length) (tol : ℝ) (maxIter : Int) (rnd : List (BitVec 32))
    (hr : ∀ v ∈ rnd, v.toNat < 4294967168) (o : ROut ℝ)
    (he : usacHomography svd qsort m undef h n corr tol maxIter rnd = .ok (.done o)) (g : M3 ℝ) (hg : g ∈ o.hyps) :
    ∃ (h0 : M3 ℝ) (i : Fin 4 → Nat) (det : ℝ), (∀ j, i j < n) ∧ Function.Injective i ∧ det ≠ 0 ∧
      estimate4pt h0 (fun j => (i j : Int)) (sorted0 qsort n corr) = .ok (g, det) := by
  obtain ⟨-, -, -, ids, s, d, -, -, hh, hy, -⟩ := usacH_run hq h4 hn he
  rw [hh] at hg
  obtain ⟨e, f1, rfl⟩ := List.mem_map.mp hg
  obtain ⟨t, vs, vs', ⟨a, b, c, d⟩, det, t1, t2, t3, t4, t5, t6⟩ := (hy e f1).origin
  obtain ⟨-, -, -, -, -, -, hlt⟩ := c69_select4_partial _ _ _ _ _ _ _ t4
  have hlt' := hlt (by omega) (by omega) (fun v hv => hr v (t3 v hv))
  have eids : (fun j => ((![a, b, c, d] j : Nat) : Int)) = ids4 (a, b, c, d) := by
    funext j
    fin_cases j <;> rfl
  refine ⟨zeroModel, ![a, b, c, d], det, ?_, ?_, t5, by rw [eids]; exact t6⟩
  · intro j
    have : ∀ k ∈ [a, b, c, d], k < n := fun k hk => lt_of_lt_of_le (hlt' k hk) t1
    fin_cases j
    · exact this a (by simp)
    · exact this b (by simp)
    · exact this c (by simp)
    · exact this d (by simp)
  · intro j k hjk
    by_contra hne
    refine t5 (c61_4pt_repeated _ _ _ _ _ t6 j k hne ?_).1
    rw [← eids]
    simp only [hjk]

/-- If the undefined conversion yields a number, and the random numbers are in the range of the sampler, there is no (other)
undefined behaviour. -/
theorem c97_safe_partial (hq : ∀ l, (qsort l).Perm l) (m : ℝ) (v : Int) (h : M3 ℝ) (n : Nat) (h4 : 4 ≤ n)
    (h24 : n ≤ 16777216) (corr : List (PMatch ℝ)) (hn : n ≤ corr.length) (tol : ℝ) (maxIter : Int) (rnd : List (BitVec 32))
    (hr : ∀ v ∈ rnd, v.toNat < 4294967168) :
    ∃ r, usacHomography svd qsort m (some v) h n corr tol maxIter rnd = .ok r := by
  have hl : n ≤ (sorted0 qsort n corr).length := by rw [sorted0_length hq]; exact hn
  obtain ⟨⟨ids, s⟩, hrun, heq⟩ := usacHomography_eq (svd := svd) (qsort := qsort) m (some v) h n h4 corr hn tol maxIter rnd
  rw [heq]
  have hinv := usacHLoop_inv (m := m) (tol := tol) (rnd0 := rnd) hl _ _ _ (uStart_inv corr rnd) _ hrun
  obtain ⟨x, hx⟩ := usacHLoop_safe (m := m) (tol := tol) (rnd0 := rnd) hl h4 h24 hr v _ _ _ (uStart_inv corr rnd) ⟨_, rfl⟩ _ hrun
  simp only at hinv hx ⊢
  cases x with
  | done d =>
    obtain ⟨g', q1, q2, q3, q4⟩ := usacHFinish_done (svd := svd) (m := m) (tol := tol) (maxIter := maxIter) (undef := some v)
      (ids := ids) (by omega) hl hx (hinv d hx).same
    rw [q2]
    have hm : markInliers (usacFinish (usacHConfig svd m n tol maxIter (some v)) ids s).best n
        (markAll (hTest tol g') n (sorted0 qsort n corr)) tol = _ :=
      mark_of_unmark (hTest_blind tol (usacFinish (usacHConfig svd m n tol maxIter (some v)) ids s).best) hl
        (unmark_markAll (test := hTest tol g') hl)
    simp only [Res.bind, hm]
    exact ⟨_, rfl⟩
  | starved =>
    have : (usacFinish (usacHConfig svd m n tol maxIter (some v)) ids s).data = .ok .starved := by
      unfold usacFinish
      simp only [usacHConfig, usacHGlobal, usacHScore, hx, withData]
      rfl
    rw [this]
    exact ⟨_, rfl⟩
  | nan =>
    have : (usacFinish (usacHConfig svd m n tol maxIter (some v)) ids s).data = .ok .nan := by
      unfold usacFinish
      simp only [usacHConfig, usacHGlobal, usacHScore, hx, withData]
      rfl
    rw [this]
    exact ⟨_, rfl⟩

/-- If a transformation takes all points exactly, and the first selection is good, its hypothesis is returned, which is the
transformation up to scale; every match is marked and counted. -/
theorem c97_recover_partial (hq : ∀ l, (qsort l).Perm l) (m : ℝ) (v : Int) (hv : v < 200) (h : M3 ℝ) (n : Nat) (h4 : 4 ≤ n)
    (corr : List (PMatch ℝ)) (hn : n ≤ corr.length) (tol : ℝ) (ht : tol ≠ 0) (maxIter : Int) (hi : 2 ≤ maxIter)
    (rnd : List (BitVec 32)) (B : Matrix (Fin 3) (Fin 3) ℝ) (hB : ∀ c ∈ corr.take n, Projects B c.x c.xp)
    (o : ROut ℝ) (he : usacHomography svd qsort m (some v) h n corr tol maxIter rnd = .ok (.done o))
    (i : Nat × Nat × Nat × Nat) (rnd' : List (BitVec 32)) (hsel : selectProsac4 (min n 11) rnd = some (i, rnd'))
    (hlt : ∀ j ∈ [i.1, i.2.1, i.2.2.1, i.2.2.2], j < n)
    (g : M3 ℝ) (det : ℝ) (x : A8 ℝ) (hr : estimate4pt zeroModel (ids4 i) (sorted0 qsort n corr) = .ok (g, det)) (hdet : det ≠ 0)
    (hx : gather PMatch.x (ids4 i) (sorted0 qsort n corr) = .ok x) (hg : General x.pt) (hdx : (estimateUnit x).2 ≠ 0)
    (hc : homographyCheck g m = true) :
    o.h = g ∧ (∃ k : ℝ, k ≠ 0 ∧ B = k • g.mat) ∧ (∀ c ∈ o.corr.take n, c.inlier = true) ∧ o.count = n := by
  have hl : n ≤ (sorted0 qsort n corr).length := by rw [sorted0_length hq]; exact hn
  have hmem : ∀ d, d ∈ (sorted0 qsort n corr).take n ↔ d ∈ corr.take n := by
    intro d
    rw [sorted0_take hq hn]
    exact (hq _).mem_iff
  have hid : ∀ j, ∃ a, a < n ∧ ids4 i j = (a : Int) := by
    intro j
    fin_cases j
    · exact ⟨i.1, hlt _ (by simp), rfl⟩
    · exact ⟨i.2.1, hlt _ (by simp), rfl⟩
    · exact ⟨i.2.2.1, hlt _ (by simp), rfl⟩
    · exact ⟨i.2.2.2, hlt _ (by simp), rfl⟩
  have hin : ∀ j d, (sorted0 qsort n corr)[(ids4 i j).toNat]? = some d → d ∈ corr.take n := by
    intro j d hjd
    obtain ⟨a, ha, e⟩ := hid j
    rw [e, Int.toNat_natCast] at hjd
    rw [← hmem]
    apply List.mem_of_getElem? (i := a)
    rw [List.getElem?_take_of_lt ha, hjd]
  obtain ⟨k, hk, hkB⟩ := c71_hyp_exact zeroModel g det (ids4 i) _ x hr hdet hx hg hdx B fun j d hjd => hB d (hin j d hjd)
  have hfull : score (hTest tol g) n (sorted0 qsort n corr) = n := by
    rw [score_all hl]
    intro d hd
    rw [hTest_iff]
    have := hB d ((hmem d).mp hd)
    rw [hkB] at this
    exact projects_within (this.unscale hk) ht
  obtain ⟨e1, e2, e3, ids, s, d, hrun, hd, hh, hy, g', q1, q2⟩ := usacH_run hq h4 hn he
  have hbest : s.bestScore = some n ∧ s.best = g := by
    rw [usacHLoop_succ] at hrun
    have htop : (if (if 10 > n then n else 10) + 1 ≥ n then n else (if 10 > n then n else 10) + 1) = min n 11 := by
      by_cases h10 : 10 > n
      · rw [if_pos h10, if_pos (by omega)]
        omega
      · rw [if_neg h10]
        split <;> omega
    have hterm : usacHTerminate n maxIter (some v) none (.ok (.done (uStart qsort n corr rnd)))
        = (false, .ok (.done (⟨sorted0 qsort n corr, min n 11, 1, rnd⟩ : UData ℝ))) := by
      unfold usacHTerminate
      apply withData_done
      have e0 : decide ((((0 + 1 : Nat) : Int)) ≥ maxIter ∨ v ≥ 200) = false := by
        rw [decide_eq_false_iff_not]
        push_cast
        omega
      exact congrArg (fun p => Res.ok (Run.done p)) (Prod.ext e0
        (congrArg (fun t => (⟨sorted0 qsort n corr, t, 1, rnd⟩ : UData ℝ)) htop))
    have hsam : usacHSample (0, 0, 0, 0) (.ok (.done (⟨sorted0 qsort n corr, min n 11, 1, rnd⟩ : UData ℝ)))
        = (i, .ok (.done ⟨sorted0 qsort n corr, min n 11, 1, rnd'⟩)) := by
      unfold usacHSample
      apply withData_done
      simp only [hsel]
    have hfit : usacHFit i (.ok (.done (⟨sorted0 qsort n corr, min n 11, 1, rnd'⟩ : UData ℝ)))
        = ([g], .ok (.done ⟨sorted0 qsort n corr, min n 11, 1, rnd'⟩)) := by
      unfold usacHFit
      apply withData_done
      simp only [hr, Res.bind]
      rw [if_neg hdet]
    simp only [hterm, hsam, hfit, Bool.false_eq_true, if_false, List.foldl_cons, List.foldl_nil] at hrun
    rw [usacModel_eq, if_pos hc] at hrun
    have hsc := usacHScore_done (tol := tol) (g := g) (d := ⟨sorted0 qsort n corr, min n 11, 1, rnd'⟩)
      (c0 := sorted0 qsort n corr) hl rfl
    simp only [hsc, hfull] at hrun
    rw [if_pos (by rfl)] at hrun
    obtain ⟨a, b⟩ := usacHLoop_stay _ _ _ rfl _ hrun
    exact ⟨a, b⟩
  have hog : o.h = g := by
    rcases q2 with ⟨f1, f2⟩ | ⟨f1, f2⟩
    · rw [hbest.1] at f1
      have := score_le (hTest tol g') n (sorted0 qsort n corr)
      simp only [usacHConfig, decide_eq_true_eq] at f1
      omega
    · rw [f2, hbest.2]
  refine ⟨hog, ⟨k, hk, hkB⟩, ?_, ?_⟩
  · rw [e1, hog, markAll_take hl]
    intro d hd
    rw [marked, List.mem_map] at hd
    obtain ⟨d', hd', rfl⟩ := hd
    exact (score_all hl).mp hfull d' hd'
  · rw [e2, hog, if_pos hc, hfull]

/-- With a random number beyond the range of the sampler a match behind the last one is read. -/
theorem c97_out_of_bounds (hq : ∀ l, (qsort l).Perm l) (m : ℝ) (v : Int) (hv : v < 200) (h : M3 ℝ) (corr : List (PMatch ℝ))
    (h4 : 4 ≤ corr.length) (h11 : corr.length ≤ 11) (tol : ℝ) (maxIter : Int) (hi : 2 ≤ maxIter) (w : BitVec 32)
    (rnd : List (BitVec 32)) (hw : 4294967168 ≤ w.toNat) (hsel : selectProsac4 corr.length (w :: rnd) ≠ none) :
    usacHomography svd qsort m (some v) h corr.length corr tol maxIter (w :: rnd) = .ub := by
  obtain ⟨⟨ids, s⟩, hrun, heq⟩ := usacHomography_eq (svd := svd) (qsort := qsort) m (some v) h corr.length h4 corr le_rfl tol
    maxIter (w :: rnd)
  rw [heq]
  obtain ⟨⟨⟨a, b, c, d⟩, vs⟩, hs⟩ := Option.ne_none_iff_exists'.mp hsel
  have ha : a = corr.length := by
    unfold selectProsac4 at hs
    simp only [Option.bind_eq_bind, Option.pure_def, Option.bind_eq_some_iff, Prod.exists, Option.some.injEq,
      Prod.mk.injEq] at hs
    obtain ⟨a', v1, h1, b', v2, h2, c', v3, h3, d', v4, h4, ⟨rfl, rfl, rfl, rfl⟩, rfl⟩ := hs
    rw [drawUntil] at h1
    rw [if_neg Bool.false_ne_true, Option.some.injEq, Prod.mk.injEq] at h1
    rw [← h1.1]
    exact c69_index_out _ _ (by omega) hw
  have hr : readI (sorted0 qsort corr.length corr) ((a : Nat) : Int) = .ub := by
    have := sorted0_length hq corr.length corr
    rw [readI, if_pos (by omega), Int.toNat_natCast, readAt, List.getElem?_eq_none (by omega)]
  have he4 : estimate4pt (zeroModel : M3 ℝ) (ids4 (a, b, c, d)) (sorted0 qsort corr.length corr) = .ub := by
    simp only [estimate4pt, gather, ids4, Matrix.cons_val_zero, hr]
    rfl
  have hub : s.data = .ub := by
    rw [usacHLoop_succ] at hrun
    have htop : (if (if 10 > corr.length then corr.length else 10) + 1 ≥ corr.length then corr.length
        else (if 10 > corr.length then corr.length else 10) + 1) = corr.length := by
      by_cases h10 : 10 > corr.length
      · rw [if_pos h10, if_pos (by omega)]
      · rw [if_neg h10]
        split <;> omega
    have hterm : usacHTerminate corr.length maxIter (some v) none (.ok (.done (uStart qsort corr.length corr (w :: rnd))))
        = (false, .ok (.done (⟨sorted0 qsort corr.length corr, corr.length, 1, w :: rnd⟩ : UData ℝ))) := by
      unfold usacHTerminate
      apply withData_done
      have e0 : decide ((((0 + 1 : Nat) : Int)) ≥ maxIter ∨ v ≥ 200) = false := by
        rw [decide_eq_false_iff_not]
        push_cast
        omega
      exact congrArg (fun p => Res.ok (Run.done p)) (Prod.ext e0
        (congrArg (fun t => (⟨sorted0 qsort corr.length corr, t, 1, w :: rnd⟩ : UData ℝ)) htop))
    have hsam : usacHSample (0, 0, 0, 0) (.ok (.done (⟨sorted0 qsort corr.length corr, corr.length, 1, w :: rnd⟩ : UData ℝ)))
        = ((a, b, c, d), .ok (.done ⟨sorted0 qsort corr.length corr, corr.length, 1, vs⟩)) := by
      unfold usacHSample
      apply withData_done
      simp only [hs]
    have hfit : usacHFit (a, b, c, d) (.ok (.done (⟨sorted0 qsort corr.length corr, corr.length, 1, vs⟩ : UData ℝ)))
        = ([], .ub) := by
      simp only [usacHFit, withData, he4, Res.bind]
    simp only [hterm, hsam, hfit, Bool.false_eq_true, if_false, List.foldl_nil] at hrun
    obtain ⟨k, hk⟩ : ∃ k, maxIter.toNat = k + 1 := ⟨maxIter.toNat - 1, by omega⟩
    rw [hk, usacHLoop_succ] at hrun
    simp only [usacHTerminate, withData, if_true, Option.some.injEq, Prod.mk.injEq] at hrun
    rw [← hrun.2]
  have : (usacFinish (usacHConfig svd m corr.length tol maxIter (some v)) ids s).data = .ub := by
    unfold usacFinish
    simp only [usacHConfig, usacHGlobal, usacHScore, hub, withData]
    rfl
  simp only [this]
  rfl

/-- Seven exact matches of a translation: the first selection finds it, all seven are marked and counted. -/
example :
    let corr := [(1, 1), (4, 2), (5, 6), (0, 4), (7, 3), (2, 9), (8, 8)].map (matchOf fun p => (p.1 + 1, p.2 + 2))
    usacHomography (fun _ => (fun _ => ![1, 0, 1, 0, 1, 2, 0, 0, 1], [])) id (249 / 250) (some (-2147483648)) dmat3Eye 7 corr 1 2
        [100000000, 700000000, 1300000000, 2000000000]
      = .ok (.done ⟨⟨469 / 794, 0, 0, 0, 469 / 794, 0, 469 / 794, 469 / 397, 469 / 794⟩,
          corr.map fun c => { c with inlier := true }, 7,
          [⟨469 / 794, 0, 0, 0, 469 / 794, 0, 469 / 794, 469 / 397, 469 / 794⟩]⟩) := by
  decide +kernel

/-- An implausible hypothesis does not displace a plausible one, unlike in `c71_implausible`. -/
example :
    (match usacHomography (fun _ => (fun _ _ => 0, [])) id (249 / 250) (some (-2147483648)) dmat3Eye 9 mixedMatches 1 3 mixedRandom with
    | .ok (.done o) => decide (o.count = 4 ∧ o.hyps = [dmat3Eye] ∧ o.h = dmat3Eye)
    | _ => false) = true := by
  decide +kernel

/-- The largest random number selects the match behind the last. -/
example :
    selectProsac4 7 [4294967295, 700000000, 1300000000, 2000000000] = some ((7, 1, 2, 3), []) ∧
    usacHomography (fun _ => (fun _ _ => 0, [])) id (249 / 250) (some (-2147483648)) dmat3Eye 7
      ([(1, 1), (4, 2), (5, 6), (0, 4), (7, 3), (2, 9), (8, 8)].map (matchOf fun p => (p.1 + 1, p.2 + 2))) 1 2
        [4294967295, 700000000, 1300000000, 2000000000] = .ub := by
  decide +kernel

end Nx
