import Verif.Lemmas.HomRansac

/-!
# C71: robust estimation of homographies
-/

namespace Nx

variable {svd : List (Fin 9 → ℝ) → (Fin 9 → Fin 9 → ℝ) × List ℝ} {qsort : List (PMatch ℝ) → List (PMatch ℝ)}

/-- With less than four matches nothing is changed and zero is returned. -/
theorem c71_few (m : ℝ) (h : M3 ℝ) (n : Int) (hn : n < 4) (corr : List (PMatch ℝ)) (tol : ℝ) (maxIter : Int)
    (rnd : List (BitVec 32)) : homographyRansac svd qsort m h n corr tol maxIter rnd = .ok (.done ⟨h, corr, 0, []⟩) := by
  rw [homographyRansac, if_pos hn]

/-- The test of `nx_homography_mark_inliers`. -/
noncomputable def hTest (tol : ℝ) (h : M3 ℝ) (c : PMatch ℝ) : Bool := closeTo (transferFwd h c.x).1 c.xp (tol * tol)

theorem hTest_iff (tol : ℝ) (h : M3 ℝ) (c : PMatch ℝ) : hTest tol h c = true ↔ Within h.mat c.x c.xp (tol ^ 2) := by
  rw [hTest, closeTo_iff, sq]

theorem hTest_blind (tol : ℝ) (h : M3 ℝ) : Blind (hTest tol h) := fun _ => rfl

/-- The new estimation from the marked matches. -/
noncomputable def hRefit (svd : List (Fin 9 → ℝ) → (Fin 9 → Fin 9 → ℝ) × List ℝ) (n : Int) (h : M3 ℝ) (corr : List (PMatch ℝ)) :
    Res (M3 ℝ) := (estimateDltInliers svd h n corr).bind fun e => .ok e.1

theorem hRefit_total (n : Nat) (h : M3 ℝ) (corr : List (PMatch ℝ)) (hn : n ≤ corr.length) :
    ∃ h', hRefit svd n h corr = .ok h' := by
  rw [hRefit, c62_dlt_inliers h n corr hn]
  unfold estimateDlt
  split
  · exact ⟨_, rfl⟩
  · rw [Int.toNat_natCast, dltRows_ok _ _ le_rfl]
    exact ⟨_, rfl⟩

theorem hRefit_markAll (test : PMatch ℝ → Bool) (n : Nat) (c0 : List (PMatch ℝ)) (hn : n ≤ c0.length) (h : M3 ℝ) :
    ∃ h', hRefit svd n h (markAll test n c0) = .ok h' := by
  apply hRefit_total
  have := congrArg List.length (unmark_markAll (test := test) hn)
  rw [unmark_length, unmark_length] at this
  omega

/-- The part that is shared with the estimation of fundamental matrices. -/
noncomputable def hCore (svd : List (Fin 9 → ℝ) → (Fin 9 → Fin 9 → ℝ) × List ℝ) (qsort : List (PMatch ℝ) → List (PMatch ℝ))
    (m : ℝ) (h : M3 ℝ) (n : Nat) (corr : List (PMatch ℝ)) (tol : ℝ) (maxIter : Int) (rnd : List (BitVec 32)) :
    Res (Run (ROut ℝ)) :=
  ransacCore 200 n maxIter qsort (fun nTop h corr rnd => tryLoop m corr nTop 9 h rnd)
    (fun h corr => markLoop (hTest tol h) n corr 0) (hRefit svd n) h corr rnd

theorem homographyRansac_eq (m : ℝ) (h : M3 ℝ) (n : Nat) (h4 : 4 ≤ n) (corr : List (PMatch ℝ)) (tol : ℝ) (maxIter : Int)
    (rnd : List (BitVec 32)) :
    homographyRansac svd qsort m h n corr tol maxIter rnd = (hCore svd qsort m h n corr tol maxIter rnd).bind fun
      | .done o => .ok (.done { o with count := if homographyCheck o.h m then o.count else 0 })
      | .starved => .ok .starved
      | .nan => .ok .nan := by
  rw [homographyRansac, if_neg (by omega)]
  simp only [markInliers, Int.toNat_natCast]
  change Res.bind (hCore svd qsort m h n corr tol maxIter rnd) _ = _
  cases hCore svd qsort m h n corr tol maxIter rnd with
  | ok r => cases r <;> rfl
  | fatal => rfl
  | ub => rfl

/-- A finished run is a finished run of the shared part, followed by the check. -/
theorem homographyRansac_done {m : ℝ} {h : M3 ℝ} {n : Nat} (h4 : 4 ≤ n) {corr : List (PMatch ℝ)} {tol : ℝ} {maxIter : Int}
    {rnd : List (BitVec 32)} {o : ROut ℝ}
    (he : homographyRansac svd qsort m h n corr tol maxIter rnd = .ok (.done o)) :
    ∃ o', hCore svd qsort m h n corr tol maxIter rnd = .ok (.done o') ∧ o.h = o'.h ∧ o.corr = o'.corr ∧ o.hyps = o'.hyps ∧
      o.count = if homographyCheck o'.h m then o'.count else 0 := by
  rw [homographyRansac_eq m h n h4] at he
  obtain ⟨r, hr, he⟩ := Res.bind_eq_ok.mp he
  cases r with
  | starved => cases he
  | nan => cases he
  | done o' =>
    cases he
    exact ⟨o', hr, rfl, rfl, rfl, rfl⟩

theorem hCore_outcome (hq : ∀ l, (qsort l).Perm l) {m : ℝ} {h : M3 ℝ} {n : Nat} (h4 : 4 ≤ n) {corr : List (PMatch ℝ)}
    (hn : n ≤ corr.length) {tol : ℝ} {maxIter : Int} {rnd : List (BitVec 32)} {o : ROut ℝ}
    (he : hCore svd qsort m h n corr tol maxIter rnd = .ok (.done o)) :
    RSpec (fun nTop h corr rnd => tryLoop m corr nTop 9 h rnd) (hTest tol) (hRefit svd n) 200 n maxIter.toNat
        (sorted0 qsort n corr) rnd o ∧
      ROutcome (fun h c => Within h.mat c.x c.xp (tol ^ 2)) (hRefit svd n) n maxIter.toNat corr o := by
  have hl : n ≤ (sorted0 qsort n corr).length := by rw [sorted0_length hq]; exact hn
  have hs := ransacCore_spec (tryLoop_sub m) (hTest_blind tol) hq hn (by omega)
    (fun g => hRefit_markAll _ _ _ hl g) h rnd o he
  exact ⟨hs, rspec_outcome (hTest_blind tol) (hTest_iff tol) hq hn hs⟩

/-- What `nx_homography_estimate_ransac` leaves: the first `n` matches are permuted, and marked iff the returned homography
takes their point to less than the tolerance from the other one; the number of marks is returned if the homography passes the
check, else zero. -/
theorem c71_result (hq : ∀ l, (qsort l).Perm l) (m : ℝ) (h : M3 ℝ) (n : Nat) (h4 : 4 ≤ n) (corr : List (PMatch ℝ))
    (hn : n ≤ corr.length) (tol : ℝ) (maxIter : Int) (rnd : List (BitVec 32)) (o : ROut ℝ)
    (he : homographyRansac svd qsort m h n corr tol maxIter rnd = .ok (.done o)) :
    MarkedBy (fun c => Within o.h.mat c.x c.xp (tol ^ 2)) n corr o.corr ∧
      nMarked n o.corr = nWith (fun c => Within o.h.mat c.x c.xp (tol ^ 2)) n corr ∧
      (homographyCheck o.h m = true → o.count = nMarked n o.corr) ∧ (homographyCheck o.h m = false → o.count = 0) := by
  obtain ⟨o', he', e1, e2, e3, e4⟩ := homographyRansac_done h4 he
  obtain ⟨-, ho⟩ := hCore_outcome hq h4 hn he'
  rw [e1, e2, e4]
  refine ⟨ho.marks, ho.same, ?_, ?_⟩
  · intro hc
    rw [if_pos hc, ho.count]
  · intro hc
    rw [hc]
    rfl

/-- The returned homography: some best of at most `maxIter` hypotheses if it has at most six inliers, else the homography
that minimises the algebraic error among the inliers of a homography that has at least as many inliers as the best hypothesis. -/
theorem c71_best (hs : SvdContract svd) (hq : ∀ l, (qsort l).Perm l) (m : ℝ) (h : M3 ℝ) (n : Nat) (h4 : 4 ≤ n)
    (corr : List (PMatch ℝ)) (hn : n ≤ corr.length) (tol : ℝ) (maxIter : Int) (rnd : List (BitVec 32)) (o : ROut ℝ)
    (he : homographyRansac svd qsort m h n corr tol maxIter rnd = .ok (.done o)) :
    o.hyps.length ≤ maxIter.toNat ∧
    ∃ hb ∈ o.hyps, 0 < nWith (fun c => Within hb.mat c.x c.xp (tol ^ 2)) n corr ∧
      (∀ g ∈ o.hyps, nWith (fun c => Within g.mat c.x c.xp (tol ^ 2)) n corr
        ≤ nWith (fun c => Within hb.mat c.x c.xp (tol ^ 2)) n corr) ∧
      ((o.h = hb ∧ nWith (fun c => Within hb.mat c.x c.xp (tol ^ 2)) n corr ≤ 6) ∨
        ∃ (h1 : M3 ℝ) (corr1 : List (PMatch ℝ)), MarkedBy (fun c => Within h1.mat c.x c.xp (tol ^ 2)) n corr corr1 ∧
          nMarked n corr1 = nWith (fun c => Within h1.mat c.x c.xp (tol ^ 2)) n corr ∧
          nWith (fun c => Within hb.mat c.x c.xp (tol ^ 2)) n corr ≤ nMarked n corr1 ∧ 7 ≤ nMarked n corr1 ∧
          frobSq o.h.mat = 1 ∧
          (∀ A, frobSq A = 1 → algError o.h.mat ((corr1.take n).filter fun c => c.inlier)
            ≤ algError A ((corr1.take n).filter fun c => c.inlier)) ∧
          nWith (fun c => Within o.h.mat c.x c.xp (tol ^ 2)) n corr ≤ nMarked n corr1 + 5) := by
  obtain ⟨o', he', e1, e2, e3, e4⟩ := homographyRansac_done h4 he
  obtain ⟨-, ho⟩ := hCore_outcome hq h4 hn he'
  rw [e1, e3]
  refine ⟨ho.iter, ?_⟩
  obtain ⟨hb, b1, b2, b3, b4⟩ := ho.best
  refine ⟨hb, b1, b2, b3, ?_⟩
  rcases b4 with b4 | ⟨h1, corr1, d1, d2, d3, d4, d5, d6, d7⟩
  · exact .inl b4
  · refine .inr ⟨h1, corr1, d3, d4, by omega, by omega, ?_⟩
    rw [hRefit, c62_dlt_inliers _ _ _ (by omega)] at d6
    have hlen : ((corr1.take n).filter fun c => c.inlier).length = nMarked n corr1 := by
      rw [nMarked, List.countP_eq_length_filter]
    obtain ⟨h', s, f1, f2, f3⟩ := c62_dlt hs h1 ((corr1.take n).filter fun c => c.inlier) (by omega)
    rw [f1] at d6
    cases d6
    exact ⟨f2, f3, by omega⟩

/-- Every hypothesis is the result of `nx_homography_estimate_4pt` for four of the matches (if no random number is one of those for
which the sampler leaves its range). -/
theorem c71_hyps (hq : ∀ l, (qsort l).Perm l) (m : ℝ) (h : M3 ℝ) (n : Nat) (h4 : 4 ≤ n) (h24 : n ≤ 16777216)
    (corr : List (PMatch ℝ)) (hn : n ≤ corr.length) (tol : ℝ) (maxIter : Int) (rnd : List (BitVec 32))
    (hr : ∀ v ∈ rnd, v.toNat < 4294967168) (o : ROut ℝ)
    (he : homographyRansac svd qsort m h n corr tol maxIter rnd = .ok (.done o)) (g : M3 ℝ) (hg : g ∈ o.hyps) :
    ∃ (h0 : M3 ℝ) (i : Fin 4 → Nat) (det : ℝ), (∀ j, i j < n) ∧
      estimate4pt h0 (fun j => (i j : Int)) (sorted0 qsort n corr) = .ok (g, det) := by
  obtain ⟨o', he', e1, e2, e3, e4⟩ := homographyRansac_done h4 he
  obtain ⟨ho, -⟩ := hCore_outcome hq h4 hn he'
  rw [e3] at hg
  obtain ⟨t, h0, c, r, r', p1, p2, p3, p4, p5⟩ := ho.hyps g hg
  obtain ⟨-, h0', ⟨a, b, c', d⟩, det, vs, vs', s1, s2, s3⟩ := tryLoop_done _ _ _ _ _ _ _ _ p1
  obtain ⟨-, -, -, -, -, -, hlt⟩ := c69_select4_partial _ _ _ _ _ _ _ s1
  have hlt' := hlt (p3 (by omega)) (by omega) (fun v hv => hr v (p5 v (s2 v hv)))
  refine ⟨h0', ![a, b, c', d], det, ?_, ?_⟩
  · intro j
    have : ∀ k ∈ [a, b, c', d], k < n := fun k hk => lt_of_lt_of_le (hlt' k hk) p2
    fin_cases j
    · exact this a (by simp)
    · exact this b (by simp)
    · exact this c' (by simp)
    · exact this d (by simp)
  · have e : (fun j => ((![a, b, c', d] j : Nat) : Int)) = ids4 (a, b, c', d) := by
      funext j
      fin_cases j <;> rfl
    rw [e]
    exact estimate4pt_congr p4 s3

/-- Without an iteration the uninitialised array of the best hypothesis is used. -/
theorem c71_uninit (m : ℝ) (h : M3 ℝ) (n : Nat) (h4 : 4 ≤ n) (corr : List (PMatch ℝ))
    (hn : n ≤ corr.length) (tol : ℝ) (maxIter : Int) (hi : maxIter ≤ 0) (rnd : List (BitVec 32)) :
    homographyRansac svd qsort m h n corr tol maxIter rnd = .ub := by
  rw [homographyRansac_eq m h n h4, hCore, ransacCore, sortFirst, if_pos hn]
  have e : maxIter.toNat = 0 := by omega
  simp only [Res.bind, e, ransacLoop, ransacFinish]

/-- Nor does the function finish with a tolerance of zero, even if there is a homography without any error. -/
theorem c71_zero (hq : ∀ l, (qsort l).Perm l) (m : ℝ) (h : M3 ℝ) (n : Nat) (h4 : 4 ≤ n) (corr : List (PMatch ℝ))
    (hn : n ≤ corr.length) (maxIter : Int) (rnd : List (BitVec 32)) (o : ROut ℝ) :
    homographyRansac svd qsort m h n corr 0 maxIter rnd ≠ .ok (.done o) := by
  intro he
  obtain ⟨o', he', -⟩ := homographyRansac_done h4 he
  obtain ⟨-, ho⟩ := hCore_outcome hq h4 hn he'
  obtain ⟨hb, -, b2, -⟩ := ho.best
  rw [nWith, List.countP_pos_iff] at b2
  obtain ⟨c, -, hc⟩ := b2
  simp only [decide_eq_true_eq] at hc
  obtain ⟨q, -, hlt⟩ := hc
  have h1 := sq_nonneg (q.1 - c.xp.1)
  have h2 := sq_nonneg (q.2 - c.xp.2)
  norm_num at hlt
  linarith

/-- Otherwise, if the random numbers are in the range of the sampler, there is no undefined behaviour, unless no hypothesis of
the main loop has an inlier. -/
theorem c71_safe_partial (hq : ∀ l, (qsort l).Perm l) (m : ℝ) (h : M3 ℝ) (n : Nat) (h4 : 4 ≤ n) (h24 : n ≤ 16777216)
    (corr : List (PMatch ℝ)) (hn : n ≤ corr.length) (tol : ℝ) (maxIter : Int) (rnd : List (BitVec 32))
    (hr : ∀ v ∈ rnd, v.toNat < 4294967168) :
    (∃ r, homographyRansac svd qsort m h n corr tol maxIter rnd = .ok r) ∨
    (homographyRansac svd qsort m h n corr tol maxIter rnd = .ub ∧
      ∃ s, ransacLoop 200 n (fun nTop h corr rnd => tryLoop m corr nTop 9 h rnd) (fun h corr => markInliers h n corr tol)
          maxIter.toNat ⟨h, none, 0, 0, sorted0 qsort n corr, if 10 > n then n else 10, rnd, []⟩ = .ok (.done s) ∧
        ∀ g ∈ s.hyps, ∀ c ∈ corr.take n, ¬ Within g.mat c.x c.xp (tol ^ 2)) := by
  have hl : n ≤ (sorted0 qsort n corr).length := by rw [sorted0_length hq]; exact hn
  rw [homographyRansac_eq m h n h4]
  rcases ransacCore_safe (limit := 200) (maxIter := maxIter) (Q := fun v => v.toNat < 4294967168) (tryLoop_sub m) (hTest_blind tol) hq hn
    (by omega) (fun g => hRefit_markAll (svd := svd) _ _ _ hl g) (by
      intro t g c r ht1 ht2 hc hv
      have : c.length = (sorted0 qsort n corr).length := by
        have := congrArg List.length hc
        rwa [unmark_length, unmark_length] at this
      exact tryLoop_total m c t (ht2 (by omega)) (by omega) (by omega) 9 g r hv) h rnd hr with ⟨r, e⟩ | ⟨e, s, e', hz⟩
  · refine .inl ?_
    rw [hCore, e]
    cases r with
    | starved => exact ⟨_, rfl⟩
    | nan => exact ⟨_, rfl⟩
    | done o => exact ⟨_, rfl⟩
  · refine .inr ⟨by rw [hCore, e]; rfl, s, e', ?_⟩
    intro g hg c hc hw
    have h0 := hz g hg
    rw [score_nWith (hTest_iff tol g) hq hn, nWith, List.countP_eq_zero] at h0
    exact h0 c hc (by simpa using hw)

/-- With a random number beyond the range of the sampler a match behind the last one is read. -/
theorem c71_out_of_bounds (hq : ∀ l, (qsort l).Perm l) (m : ℝ) (h : M3 ℝ) (corr : List (PMatch ℝ)) (h4 : 4 ≤ corr.length)
    (h10 : corr.length ≤ 10) (tol : ℝ) (maxIter : Int) (hi : 1 ≤ maxIter) (v : BitVec 32) (rnd : List (BitVec 32))
    (hv : 4294967168 ≤ v.toNat) (hsel : selectProsac4 corr.length (v :: rnd) ≠ none) :
    homographyRansac svd qsort m h corr.length corr tol maxIter (v :: rnd) = .ub := by
  obtain ⟨k, hk⟩ : ∃ k, maxIter.toNat = k + 1 := ⟨maxIter.toNat - 1, by omega⟩
  have htop : (if 10 > corr.length then corr.length else 10) = corr.length := by split <;> omega
  have htry : tryLoop m (sorted0 qsort corr.length corr) corr.length 9 h (v :: rnd) = .ub := by
    rw [tryLoop.eq_def]
    simp only
    cases hs : selectProsac4 corr.length (v :: rnd) with
    | none => exact absurd hs hsel
    | some p =>
      obtain ⟨⟨a, b, c, d⟩, vs⟩ := p
      have ha : a = corr.length := by
        unfold selectProsac4 at hs
        simp only [Option.bind_eq_bind, Option.pure_def, Option.bind_eq_some_iff, Prod.exists, Option.some.injEq,
          Prod.mk.injEq] at hs
        obtain ⟨a', v1, h1, b', v2, h2, c', v3, h3, d', v4, h4, ⟨rfl, rfl, rfl, rfl⟩, rfl⟩ := hs
        rw [drawUntil] at h1
        rw [if_neg Bool.false_ne_true, Option.some.injEq, Prod.mk.injEq] at h1
        rw [← h1.1]
        exact c69_index_out _ _ (by omega) hv
      have hr : readI (sorted0 qsort corr.length corr) ((a : Nat) : Int) = .ub := by
        have := sorted0_length hq corr.length corr
        rw [readI, if_pos (by omega), Int.toNat_natCast, readAt, List.getElem?_eq_none (by omega)]
      simp only [estimate4pt, gather, ids4, Matrix.cons_val_zero, hr]
      rfl
  rw [homographyRansac_eq m h corr.length h4, hCore, ransacCore, sortFirst, if_pos le_rfl]
  simp only [Res.bind, hk, ransacLoop, htop]
  rw [← sorted0, htry]
  rfl

/-- A homography that takes all points exactly has all matches as inliers. -/
theorem projects_within {A : Matrix (Fin 3) (Fin 3) ℝ} {p q : ℝ × ℝ} (h : Projects A p q) {tol : ℝ} (ht : tol ≠ 0) :
    Within A p q (tol ^ 2) := ⟨q, h, by
      have : 0 < tol ^ 2 := by positivity
      simpa using this⟩

theorem score_all {test : PMatch ℝ → Bool} {n : Nat} {c0 : List (PMatch ℝ)} (h0 : n ≤ c0.length) :
    score test n c0 = n ↔ ∀ c ∈ c0.take n, test c = true := by
  have hl : (c0.take n).length = n := by rw [List.length_take]; omega
  rw [score]
  conv_lhs => rhs; rw [← hl]
  exact List.length_filter_eq_length_iff

theorem hRefit_exact (hs : SvdContract svd) (hq : ∀ l, (qsort l).Perm l) {n : Nat} (h7 : 7 ≤ n) {corr : List (PMatch ℝ)}
    (hn : n ≤ corr.length) {tol : ℝ} (ht : tol ≠ 0) {B : Matrix (Fin 3) (Fin 3) ℝ} (hd : B.det ≠ 0)
    (hB : ∀ c ∈ corr.take n, Projects B c.x c.xp) (c : Fin 4 → PMatch ℝ) (hc : ∀ i, c i ∈ corr.take n)
    (hg : General fun i => (c i).x) (h h' : M3 ℝ) (hsc : score (hTest tol h) n (sorted0 qsort n corr) = n)
    (hr : hRefit svd n h (markAll (hTest tol h) n (sorted0 qsort n corr)) = .ok h') :
    (∃ k : ℝ, k ≠ 0 ∧ h'.mat = k • B) ∧ score (hTest tol h') n (sorted0 qsort n corr) = n := by
  have hl : n ≤ (sorted0 qsort n corr).length := by rw [sorted0_length hq]; exact hn
  have hm : n ≤ (markAll (hTest tol h) n (sorted0 qsort n corr)).length := by
    have := congrArg List.length (unmark_markAll (test := hTest tol h) hl)
    rw [unmark_length, unmark_length] at this
    omega
  rw [hRefit, c62_dlt_inliers _ _ _ hm, filter_markAll hl hsc] at hr
  have hmem : ∀ d, d ∈ (sorted0 qsort n corr).take n ↔ d ∈ corr.take n := by
    intro d
    rw [sorted0_take hq hn]
    exact (hq _).mem_iff
  have hB' : ∀ d ∈ ((sorted0 qsort n corr).take n).map (fun c : PMatch ℝ => { c with inlier := true }),
      Projects B d.x d.xp := by
    intro d hd
    rw [List.mem_map] at hd
    obtain ⟨e, he, rfl⟩ := hd
    exact hB e ((hmem e).mp he)
  obtain ⟨g, s, k, f1, f2, f3, f4⟩ := c62_dlt_exact hs h _
    (by rw [List.length_map, List.length_take]; omega) B hB' hd (fun i => { c i with inlier := true })
    (fun i => List.mem_map.mpr ⟨c i, (hmem _).mpr (hc i), rfl⟩) hg
  rw [f1] at hr
  cases hr
  refine ⟨⟨k, f2, f3⟩, ?_⟩
  rw [score_all hl]
  intro d hd
  rw [hTest_iff]
  apply projects_within _ ht
  rw [← transferFwd_eq_some]
  exact f4 { d with inlier := true } (List.mem_map.mpr ⟨d, hd, rfl⟩)

/-- If a regular transformation takes all points exactly, four of which are in general position, and some hypothesis has all
matches as inliers, the result is this transformation up to scale, and every match is marked. -/
theorem c71_recover_partial (hs : SvdContract svd) (hq : ∀ l, (qsort l).Perm l) (m : ℝ) (h : M3 ℝ) (n : Nat) (h7 : 7 ≤ n)
    (corr : List (PMatch ℝ)) (hn : n ≤ corr.length) (tol : ℝ) (ht : tol ≠ 0) (maxIter : Int) (rnd : List (BitVec 32))
    (B : Matrix (Fin 3) (Fin 3) ℝ) (hd : B.det ≠ 0) (hB : ∀ c ∈ corr.take n, Projects B c.x c.xp) (c : Fin 4 → PMatch ℝ)
    (hc : ∀ i, c i ∈ corr.take n) (hg : General fun i => (c i).x) (o : ROut ℝ)
    (he : homographyRansac svd qsort m h n corr tol maxIter rnd = .ok (.done o))
    (hall : ∃ g ∈ o.hyps, ∀ c ∈ corr.take n, Within g.mat c.x c.xp (tol ^ 2)) :
    (∃ k : ℝ, k ≠ 0 ∧ o.h.mat = k • B) ∧ (∀ c ∈ o.corr.take n, c.inlier = true) ∧
      (homographyCheck o.h m = true → o.count = n) := by
  obtain ⟨o', he', e1, e2, e3, e4⟩ := homographyRansac_done (by omega) he
  obtain ⟨hr, ho⟩ := hCore_outcome hq (by omega) hn he'
  have hl : n ≤ (sorted0 qsort n corr).length := by rw [sorted0_length hq]; exact hn
  obtain ⟨g, hg1, hg2⟩ := hall
  rw [e3] at hg1
  obtain ⟨r1, r2⟩ := rspec_recover hr h7 (Good := fun h' => ∃ k : ℝ, k ≠ 0 ∧ h'.mat = k • B)
    ⟨g, hg1, (score_all hl).mpr fun d hd => (hTest_iff tol g d).mpr (hg2 d (by
      rw [sorted0_take hq hn] at hd
      exact (hq _).mem_iff.mp hd))⟩
    (fun a b ha hb => hRefit_exact hs hq h7 hn ht hd hB c hc hg a b ha hb)
  refine ⟨by rw [e1]; exact r1, ?_, ?_⟩
  · rw [e2, hr.corr, markAll_take hl]
    intro d hd
    rw [hr.count] at r2
    rw [marked, List.mem_map] at hd
    obtain ⟨d', hd', rfl⟩ := hd
    exact (score_all hl).mp r2 d' hd'
  · intro hck
    rw [e1] at hck
    rw [e4, if_pos hck, r2]

/-- The hypothesis from four exact matches is the transformation up to scale, if the determinants that are computed are not
zero and the points are in general position. -/
theorem c71_hyp_exact (h0 g : M3 ℝ) (det : ℝ) (ids : Fin 4 → Int) (corr : List (PMatch ℝ)) (x : A8 ℝ)
    (hr : estimate4pt h0 ids corr = .ok (g, det)) (hdet : det ≠ 0) (hx : gather PMatch.x ids corr = .ok x)
    (hg : General x.pt) (hdx : (estimateUnit x).2 ≠ 0) (B : Matrix (Fin 3) (Fin 3) ℝ)
    (hB : ∀ i d, corr[(ids i).toNat]? = some d → Projects B d.x d.xp) : ∃ k : ℝ, k ≠ 0 ∧ B = k • g.mat := by
  obtain ⟨c, c1, -, -, -, c5⟩ := c61_4pt_partial h0 g det ids corr x hr hdet hx hg hdx
  exact c5 B fun i => hB i (c i) (c1 i).2

theorem Projects.unscale {A : Matrix (Fin 3) (Fin 3) ℝ} {k : ℝ} (hk : k ≠ 0) {p q : ℝ × ℝ} (h : Projects (k • A) p q) :
    Projects A p q := by
  obtain ⟨s, hs, e⟩ := h
  refine ⟨k⁻¹ * s, mul_ne_zero (inv_ne_zero hk) hs, ?_⟩
  rw [Matrix.smul_mulVec] at e
  rw [mul_smul, ← e, smul_smul, inv_mul_cancel₀ hk, one_smul]

/-- So a good first selection suffices: then the transformation is found, whatever the other random numbers are. -/
theorem c71_recover_first (hs : SvdContract svd) (hq : ∀ l, (qsort l).Perm l) (m : ℝ) (h : M3 ℝ) (n : Nat) (h7 : 7 ≤ n)
    (corr : List (PMatch ℝ)) (hn : n ≤ corr.length) (tol : ℝ) (ht : tol ≠ 0) (maxIter : Int) (hi : 1 ≤ maxIter)
    (rnd : List (BitVec 32)) (B : Matrix (Fin 3) (Fin 3) ℝ) (hd : B.det ≠ 0) (hB : ∀ c ∈ corr.take n, Projects B c.x c.xp)
    (o : ROut ℝ) (he : homographyRansac svd qsort m h n corr tol maxIter rnd = .ok (.done o))
    (i : Nat × Nat × Nat × Nat) (rnd' : List (BitVec 32)) (hsel : selectProsac4 (min n 10) rnd = some (i, rnd'))
    (hlt : ∀ j ∈ [i.1, i.2.1, i.2.2.1, i.2.2.2], j < n)
    (g : M3 ℝ) (det : ℝ) (x : A8 ℝ) (hr : estimate4pt h (ids4 i) (sorted0 qsort n corr) = .ok (g, det)) (hdet : det ≠ 0)
    (hx : gather PMatch.x (ids4 i) (sorted0 qsort n corr) = .ok x) (hg : General x.pt) (hdx : (estimateUnit x).2 ≠ 0) :
    (∃ k : ℝ, k ≠ 0 ∧ o.h.mat = k • B) ∧ (∀ c ∈ o.corr.take n, c.inlier = true) ∧
      (homographyCheck o.h m = true → o.count = n) := by
  have hl : n ≤ (sorted0 qsort n corr).length := by rw [sorted0_length hq]; exact hn
  have hmem : ∀ d, d ∈ (sorted0 qsort n corr).take n ↔ d ∈ corr.take n := by
    intro d
    rw [sorted0_take hq hn]
    exact (hq _).mem_iff
  have hid : ∀ j, ∃ a, a < n ∧ ids4 i j = (a : Int) := by
    intro j
    fin_cases j
    · exact ⟨i.1, hlt _ (by simp), rfl⟩
    · exact ⟨i.2.1, hlt _ (by simp), rfl⟩
    · exact ⟨i.2.2.1, hlt _ (by simp), rfl⟩
    · exact ⟨i.2.2.2, hlt _ (by simp), rfl⟩
  have hin : ∀ j d, (sorted0 qsort n corr)[(ids4 i j).toNat]? = some d → d ∈ corr.take n := by
    intro j d hjd
    obtain ⟨a, ha, e⟩ := hid j
    rw [e, Int.toNat_natCast] at hjd
    rw [← hmem]
    apply List.mem_of_getElem? (i := a)
    rw [List.getElem?_take_of_lt ha, hjd]
  obtain ⟨k, hk, hkB⟩ := c71_hyp_exact h g det (ids4 i) _ x hr hdet hx hg hdx B fun j d hjd => hB d (hin j d hjd)
  obtain ⟨c, c1, c2⟩ := gather_ok hx
  obtain ⟨o', he', e1, e2, e3, e4⟩ := homographyRansac_done (by omega) he
  have hfirst : g ∈ o'.hyps := by
    refine ransacCore_first (tryLoop_sub m) (hTest_blind tol) hq hn (by omega) (fun g => hRefit_markAll _ _ _ hl g) h rnd o'
      he' hi (by decide) g rnd' ?_
    have hmin : (if 10 > n then n else 10) = min n 10 := by split <;> omega
    rw [hmin, tryLoop.eq_def]
    simp only [hsel, hr, Res.bind]
    rw [if_neg (by tauto)]
  refine c71_recover_partial hs hq m h n h7 corr hn tol ht maxIter rnd B hd hB c (fun j => hin j _ (c1 j).2) ?_ o he
    ⟨g, by rw [e3]; exact hfirst, ?_⟩
  · have : (fun j => (c j).x) = x.pt := by
      funext j
      rw [c2]
    rw [this]
    exact hg
  · intro d hd'
    have := hB d hd'
    rw [hkB] at this
    exact projects_within (this.unscale hk) ht

/-- The loop that makes a hypothesis never checks a hypothesis of four matches: the check is only consulted if the
determinant is zero, and then for the previous hypothesis. -/
theorem c71_unchecked (m m' : ℝ) (corr : List (PMatch ℝ)) (nTop t : Nat) (h g : M3 ℝ) (det : ℝ) (rnd rnd' : List (BitVec 32))
    (i : Nat × Nat × Nat × Nat) (hsel : selectProsac4 nTop rnd = some (i, rnd'))
    (he : estimate4pt h (ids4 i) corr = .ok (g, det)) (hd : det ≠ 0) :
    tryLoop m corr nTop t h rnd = .ok (.done (g, rnd')) ∧ tryLoop m corr nTop t h rnd = tryLoop m' corr nTop t h rnd := by
  have key : ∀ m, tryLoop m corr nTop t h rnd = .ok (.done (g, rnd')) := by
    intro m
    rw [tryLoop.eq_def]
    simp only [hsel, he, Res.bind]
    cases t with
    | zero => rfl
    | succ t => simp only; rw [if_neg (by tauto)]
  exact ⟨key m, by rw [key m, key m']⟩

/-- The first `n` matches after the normalisation, and the other ones. -/
theorem normalizeMatches_take {K : Type} [Field K] [DecidableEq K] {sqrt : K → K} {n : Nat} (h0 : 0 < n)
    {corr corr' : List (PMatch K)} (hn : n ≤ corr.length) {st : MStats K}
    (h : normalizeMatches sqrt n corr = .ok (some (st, corr'))) :
    corr'.take n = (corr.take n).map (normMatch st) ∧ corr'.drop n = corr.drop n ∧ corr'.length = corr.length := by
  rw [normalizeMatches_eq sqrt n h0 corr hn] at h
  split at h
  · simp at h
  · simp only [Res.ok.injEq, Option.some.injEq, Prod.mk.injEq] at h
    obtain ⟨h1, h2⟩ := h
    rw [h1] at h2
    have hl : ((corr.take n).map (normMatch st)).length = n := by simp [hn]
    refine ⟨by rw [← h2, List.take_left' hl], by rw [← h2, List.drop_left' hl], ?_⟩
    rw [← h2, List.length_append, hl, List.length_drop]
    omega

theorem norm_unscale {K : Type} [Field K] (st : MStats K) (h1 : st.d ≠ 0) (h2 : st.dp ≠ 0) (c : PMatch K) :
    normPt st.m st.d (unscaleMatch st c).x = c.x ∧ normPt st.mp st.dp (unscaleMatch st c).xp = c.xp := by
  simp [unscaleMatch, normPt, h1, h2]

/-- The marks of the normalised matches are those of the matches. -/
theorem denormalize_markedBy {K : Type} [Field K] {st : MStats K} (h1 : st.d ≠ 0) (h2 : st.dp ≠ 0) {n : Nat}
    {corr corr1 corr2 : List (PMatch K)} (ht : corr1.take n = (corr.take n).map (normMatch st))
    (hdr : corr1.drop n = corr.drop n) (hn : n ≤ corr2.length) {P P1 : PMatch K → Prop}
    (hP : ∀ c, P1 c ↔ P (unscaleMatch st c)) (hm : MarkedBy P1 n corr1 corr2) :
    ∃ corr3, denormalizeMatches st n corr2 = .ok corr3 ∧ MarkedBy P n corr corr3 ∧ nMarked n corr3 = nMarked n corr2 := by
  have hl : ((corr2.take n).map (unscaleMatch st)).length = n := by simp [hn]
  refine ⟨(corr2.take n).map (unscaleMatch st) ++ corr2.drop n, ?_, ⟨?_, ?_, ?_⟩, ?_⟩
  · rw [denormalizeMatches, Int.toNat_natCast, mapLoop_ok _ _ _ hn]
  · rw [List.take_left' hl, List.map_map]
    have e : (PMatch.clear ∘ unscaleMatch st : PMatch K → PMatch K) = unscaleMatch st ∘ PMatch.clear := rfl
    rw [e, ← List.map_map]
    refine (hm.perm.map _).trans ?_
    rw [ht, List.map_map, List.map_map]
    have e' : (unscaleMatch st ∘ PMatch.clear) ∘ normMatch st = (PMatch.clear : PMatch K → PMatch K) := by
      funext c
      show unscaleMatch st (normMatch st c.clear) = c.clear
      exact unscale_norm st h1 h2 _
    rw [e']
  · rw [List.drop_left' hl, hm.rest, hdr]
  · rw [List.take_left' hl]
    intro c hc
    rw [List.mem_map] at hc
    obtain ⟨d, hd, rfl⟩ := hc
    rw [← hP, ← hm.mark d hd]
    rfl
  · rw [nMarked, List.take_left' hl, List.countP_map]
    rfl

theorem MarkedBy.length {K : Type} {P : PMatch K → Prop} {n : Nat} {corr corr' : List (PMatch K)}
    (h : MarkedBy P n corr corr') : corr'.length = corr.length := by
  have h1 := h.perm.length_eq
  have h2 := congrArg List.length h.rest
  simp only [List.length_map] at h1
  rw [← List.take_append_drop n corr', ← List.take_append_drop n corr, List.length_append, List.length_append, h1, h2]

theorem normalize_pos {n : Nat} (h0 : 0 < n) {corr corr' : List (PMatch ℝ)} (hn : n ≤ corr.length) {st : MStats ℝ}
    (h : normalizeMatches Real.sqrt n corr = .ok (some (st, corr'))) : 0 < st.d ∧ 0 < st.dp := by
  rcases c65_normalized n h0 corr hn with ⟨e, -⟩ | ⟨-, -, st', c', e, h1, h2, -⟩
  · rw [e] at h; cases h
  · rw [e] at h
    cases h
    exact ⟨h1, h2⟩

/-- A finished run with normalisation. -/
theorem homographyNormRansac_done {m : ℝ} {h : M3 ℝ} {n : Int} {corr : List (PMatch ℝ)} {tol : ℝ} {maxIter : Int}
    {rnd : List (BitVec 32)} {o : ROut ℝ}
    (he : homographyNormRansac Real.sqrt svd qsort m h n corr tol maxIter rnd = .ok (.done o)) :
    ∃ st corr1 o1, normalizeMatches Real.sqrt n corr = .ok (some (st, corr1)) ∧
      homographyRansac svd qsort m h n corr1 (tol / st.dp) maxIter rnd = .ok (.done o1) ∧
      denormalizeMatches st n o1.corr = .ok o.corr ∧ o.h = denormalizeHomography st o1.h ∧ o.count = o1.count ∧
      o.hyps = o1.hyps := by
  rw [homographyNormRansac] at he
  obtain ⟨r, hr, he⟩ := Res.bind_eq_ok.mp he
  cases r with
  | none => cases he
  | some p =>
    obtain ⟨st, corr1⟩ := p
    simp only at he
    obtain ⟨q, hq', he⟩ := Res.bind_eq_ok.mp he
    cases q with
    | starved => cases he
    | nan => cases he
    | done o1 =>
      simp only at he
      obtain ⟨c, hc, he⟩ := Res.bind_eq_ok.mp he
      cases he
      exact ⟨st, corr1, o1, hr, hq', hc, rfl, rfl, rfl⟩

/-- `nx_homography_estimate_norm_ransac` leaves the matches with their original coordinates, marked iff the returned
homography takes their point to less than the given tolerance from the other one, and returns the number of marks or zero. -/
theorem c71_norm (hq : ∀ l, (qsort l).Perm l) (m : ℝ) (h : M3 ℝ) (n : Nat) (h4 : 4 ≤ n) (corr : List (PMatch ℝ))
    (hn : n ≤ corr.length) (tol : ℝ) (maxIter : Int) (rnd : List (BitVec 32)) (o : ROut ℝ)
    (he : homographyNormRansac Real.sqrt svd qsort m h n corr tol maxIter rnd = .ok (.done o)) :
    MarkedBy (fun c => Within o.h.mat c.x c.xp (tol ^ 2)) n corr o.corr ∧ (o.count = nMarked n o.corr ∨ o.count = 0) := by
  obtain ⟨st, corr1, o1, e1, e2, e3, e4, e5, e6⟩ := homographyNormRansac_done he
  obtain ⟨hd, hdp⟩ := normalize_pos (by omega) hn e1
  obtain ⟨t1, t2, t3⟩ := normalizeMatches_take (by omega) hn e1
  obtain ⟨r1, r2, r3, r4⟩ := c71_result hq m h n h4 corr1 (by omega) _ maxIter rnd o1 e2
  obtain ⟨corr3, f1, f2, f3⟩ := denormalize_markedBy (P := fun c => Within o.h.mat c.x c.xp (tol ^ 2)) hd.ne' hdp.ne' t1 t2
    (by rw [r1.length]; omega) (by
      intro c
      rw [e4, sq, sq, c65_tolerance st o1.h hdp]
      obtain ⟨n1, n2⟩ := norm_unscale st hd.ne' hdp.ne' c
      rw [n1, n2]) r1
  rw [f1] at e3
  cases e3
  refine ⟨f2, ?_⟩
  rw [e5, f3]
  cases hc : homographyCheck o1.h m
  · exact .inr (r4 hc)
  · exact .inl (r3 hc)

/-- With one, two or three matches zero is returned, but the homography is changed: it is denormalised although it has not been
estimated. Without matches infinities and NaNs are computed. -/
theorem c71_norm_few (m : ℝ) (h : M3 ℝ) (n : Nat) (h4 : n < 4) (corr : List (PMatch ℝ)) (hn : n ≤ corr.length)
    (tol : ℝ) (maxIter : Int) (rnd : List (BitVec 32)) :
    (n = 0 → homographyNormRansac Real.sqrt svd qsort m h n corr tol maxIter rnd = .ok .nan) ∧
    (0 < n → ∀ st corr1, normalizeMatches Real.sqrt n corr = .ok (some (st, corr1)) →
      homographyNormRansac Real.sqrt svd qsort m h n corr tol maxIter rnd
        = .ok (.done ⟨denormalizeHomography st h, corr, 0, []⟩)) := by
  constructor
  · rintro rfl
    have := c65_empty corr
    rw [homographyNormRansac, Nat.cast_zero, this]
    rfl
  · intro h0 st corr1 e
    rw [homographyNormRansac, e]
    simp only [Res.bind]
    rw [c71_few m h n (by omega)]
    simp only
    rw [(c65_round_trip Real.sqrt n h0 corr corr1 hn st e).2.2.2.2]

/-- The matrix that takes normalised points back. -/
theorem normMat_inv (p : ℝ × ℝ) {d : ℝ} (hd : d ≠ 0) : (transl2 p.1 p.2 * scale2 d d) * normMat p d = 1 := by
  rw [normMat_eq]
  ext i j
  fin_cases i <;> fin_cases j <;>
    simp [transl2, scale2, Matrix.mul_apply, Fin.sum_univ_three] <;> field_simp <;> ring

theorem normMat_projects (p : ℝ × ℝ) (d : ℝ) (q : ℝ × ℝ) : Projects (normMat p d) q (normPt p d q) :=
  ⟨1, one_ne_zero, by rw [normMat_hom2, one_smul]⟩

theorem general_norm {p : Fin 4 → ℝ × ℝ} (hp : General p) (m : ℝ × ℝ) {d : ℝ} (hd : d ≠ 0) :
    General fun i => normPt m d (p i) := by
  have key : ∀ a b c : ℝ × ℝ, area2 a b c ≠ 0 → area2 (normPt m d a) (normPt m d b) (normPt m d c) ≠ 0 := by
    intro a b c h
    have e : area2 (normPt m d a) (normPt m d b) (normPt m d c) = area2 a b c / (d * d) := by
      simp only [area2, normPt]
      field_simp
      ring
    rw [e]
    exact div_ne_zero h (mul_ne_zero hd hd)
  obtain ⟨h0, h1, h2, h3⟩ := hp
  exact ⟨key _ _ _ h0, key _ _ _ h1, key _ _ _ h2, key _ _ _ h3⟩

/-- Recovery with normalisation, where `o.hyps` are hypotheses for normalised coordinates. -/
theorem c71_norm_recover_partial (hs : SvdContract svd) (hq : ∀ l, (qsort l).Perm l) (m : ℝ) (h : M3 ℝ) (n : Nat) (h7 : 7 ≤ n)
    (corr : List (PMatch ℝ)) (hn : n ≤ corr.length) (tol : ℝ) (ht : tol ≠ 0) (maxIter : Int) (rnd : List (BitVec 32))
    (B : Matrix (Fin 3) (Fin 3) ℝ) (hd : B.det ≠ 0) (hB : ∀ c ∈ corr.take n, Projects B c.x c.xp) (c : Fin 4 → PMatch ℝ)
    (hc : ∀ i, c i ∈ corr.take n) (hg : General fun i => (c i).x) (o : ROut ℝ)
    (he : homographyNormRansac Real.sqrt svd qsort m h n corr tol maxIter rnd = .ok (.done o)) (st : MStats ℝ)
    (corr1 : List (PMatch ℝ)) (hst : normalizeMatches Real.sqrt n corr = .ok (some (st, corr1)))
    (hall : ∃ g ∈ o.hyps, ∀ c ∈ corr.take n, Within (denormalizeHomography st g).mat c.x c.xp (tol ^ 2)) :
    (∃ k : ℝ, k ≠ 0 ∧ o.h.mat = k • B) ∧ ∀ c ∈ o.corr.take n, c.inlier = true := by
  obtain ⟨st', corr1', o1, e1, e2, e3, e4, e5, e6⟩ := homographyNormRansac_done he
  rw [hst] at e1
  cases e1
  obtain ⟨hsd, hsdp⟩ := normalize_pos (by omega) hn hst
  obtain ⟨t1, t2, t3⟩ := normalizeMatches_take (by omega) hn hst
  have hi := normMat_inv st.m hsd.ne'
  have hip := normMat_inv st.mp hsdp.ne'
  have hi' := mul_eq_one_comm.mp hi
  have hip' := mul_eq_one_comm.mp hip
  generalize hNi : transl2 st.m.1 st.m.2 * scale2 st.d st.d = Ni at hi hi'
  generalize hNpi : transl2 st.mp.1 st.mp.2 * scale2 st.dp st.dp = Npi at hip hip'
  have hdet : (normMat st.mp st.dp * B * Ni).det ≠ 0 := by
    have d1 := congrArg Matrix.det hi
    have d2 := congrArg Matrix.det hip
    rw [Matrix.det_mul, Matrix.det_one] at d1 d2
    rw [Matrix.det_mul, Matrix.det_mul]
    refine mul_ne_zero (mul_ne_zero ?_ hd) ?_
    · intro h0
      rw [h0, mul_zero] at d2
      exact zero_ne_one d2
    · intro h0
      rw [h0, zero_mul] at d1
      exact zero_ne_one d1
  have hB1 : ∀ d ∈ corr1.take n, Projects (normMat st.mp st.dp * B * Ni) d.x d.xp := by
    intro d hd
    rw [t1, List.mem_map] at hd
    obtain ⟨a, ha, rfl⟩ := hd
    have p1 : Projects Ni (normPt st.m st.d a.x) a.x := (normMat_projects st.m st.d a.x).inv hi
    have p2 := hB a ha
    have p3 := normMat_projects st.mp st.dp a.xp
    rw [Matrix.mul_assoc]
    exact (p1.comp p2).comp p3
  have hres := c71_recover_partial hs hq m h n h7 corr1 (by omega) (tol / st.dp) (div_ne_zero ht hsdp.ne') maxIter rnd _ hdet
    hB1 (fun i => normMatch st (c i)) (fun i => by rw [t1]; exact List.mem_map_of_mem (hc i)) (general_norm hg st.m hsd.ne')
    o1 e2 (by
      obtain ⟨g, g1, g2⟩ := hall
      rw [e6] at g1
      refine ⟨g, g1, ?_⟩
      intro d hd
      rw [t1, List.mem_map] at hd
      obtain ⟨a, ha, rfl⟩ := hd
      have := g2 a ha
      rw [sq, c65_tolerance st g hsdp] at this
      rw [sq]
      exact this)
  obtain ⟨⟨k, hk, hkB⟩, hmk, -⟩ := hres
  refine ⟨⟨k, hk, ?_⟩, ?_⟩
  · have e := c65_homography_mat st o1.h hsdp.ne'
    rw [← e4, hkB] at e
    calc o.h.mat = Npi * (normMat st.mp st.dp * o.h.mat) := by rw [← Matrix.mul_assoc, hip, Matrix.one_mul]
      _ = k • (Npi * normMat st.mp st.dp * B * (Ni * normMat st.m st.d)) := by
        rw [e, Matrix.smul_mul, Matrix.mul_smul]
        simp only [Matrix.mul_assoc]
      _ = k • B := by rw [hip, hi, Matrix.one_mul, Matrix.mul_one]
  · obtain ⟨r1, -⟩ := c71_result hq m h n (by omega) corr1 (by omega) _ maxIter rnd o1 e2
    have hlen := r1.length
    rw [denormalizeMatches, Int.toNat_natCast, mapLoop_ok _ _ _ (by omega), Res.ok.injEq] at e3
    have hl : ((o1.corr.take n).map (unscaleMatch st)).length = n := by
      rw [List.length_map, List.length_take]
      omega
    intro d hd
    rw [← e3, List.take_left' hl, List.mem_map] at hd
    obtain ⟨a, ha, rfl⟩ := hd
    exact hmk a ha

/-- A match of a point and its image. -/
def matchOf (f : ℚ × ℚ → ℚ × ℚ) (p : ℚ × ℚ) : PMatch ℚ := ⟨p, f p, 0, 1, 1, 0, 0, false⟩

/-- Four matches of the identity and five of a reflection. -/
def mixedMatches : List (PMatch ℚ) :=
  [(1, 1), (4, 2), (5, 6), (2, 7)].map (matchOf id)
    ++ [(11, 1), (14, 2), (15, 6), (10, 4), (13, 9)].map (matchOf fun p => (-p.1, p.2))

/-- Random numbers that select the first four and the next four of nine matches. -/
def mixedRandom : List (BitVec 32) :=
  [100000000, 600000000, 1100000000, 1600000000, 2000000000, 2500000000, 2900000000, 3500000000]

/-- Therefore an implausible hypothesis can displace a plausible one: here the identity, which passes the check, has four inliers
of nine, but the result is the reflection with five, and zero is returned. -/
theorem c71_implausible :
    ∃ o, homographyRansac (fun _ => (fun _ _ => 0, [])) id (24 / 25) dmat3Eye 9 mixedMatches 1 2 mixedRandom
        = .ok (.done o) ∧ o.count = 0 ∧ o.h = ⟨-1, 0, 0, 0, 1, 0, 0, 0, 1⟩ ∧ o.hyps = [dmat3Eye, o.h] ∧
      homographyCheck o.h (24 / 25) = false ∧ homographyCheck (dmat3Eye : M3 ℚ) (24 / 25) = true ∧
      (markInliers dmat3Eye 9 mixedMatches 1).bind (fun r => .ok r.2) = .ok 4 ∧
      (markInliers o.h 9 mixedMatches 1).bind (fun r => .ok r.2) = .ok 5 :=
  ⟨⟨⟨-1, 0, 0, 0, 1, 0, 0, 0, 1⟩, mixedMatches.take 4 ++ (mixedMatches.drop 4).map (fun c => { c with inlier := true }), 0,
    [dmat3Eye, ⟨-1, 0, 0, 0, 1, 0, 0, 0, 1⟩]⟩, by decide +kernel⟩

/-- Seven exact matches of a translation: the first selection finds it, all seven are marked and counted. -/
example :
    let corr := [(1, 1), (4, 2), (5, 6), (0, 4), (7, 3), (2, 9), (8, 8)].map (matchOf fun p => (p.1 + 1, p.2 + 2))
    homographyRansac (fun _ => (fun _ => ![1, 0, 1, 0, 1, 2, 0, 0, 1], [])) id (24 / 25) dmat3Eye 7 corr 1 1
        [100000000, 700000000, 1300000000, 2000000000]
      = .ok (.done ⟨⟨1, 0, 0, 0, 1, 0, 1, 2, 1⟩, corr.map fun c => { c with inlier := true }, 7,
          [⟨469 / 794, 0, 0, 0, 469 / 794, 0, 469 / 794, 469 / 397, 469 / 794⟩]⟩) := by
  decide +kernel

/-- The conditions on the first selection are met there. -/
example :
    let corr := [(1, 1), (4, 2), (5, 6), (0, 4), (7, 3), (2, 9), (8, 8)].map (matchOf fun p => (p.1 + 1, p.2 + 2))
    selectProsac4 7 [100000000, 700000000, 1300000000, 2000000000] = some ((0, 1, 2, 3), []) ∧
      ∃ g det x, estimate4pt dmat3Eye (ids4 (0, 1, 2, 3)) corr = .ok (g, det) ∧ det ≠ 0 ∧
        gather PMatch.x (ids4 (0, 1, 2, 3)) corr = .ok x ∧ General x.pt ∧ (estimateUnit x).2 ≠ 0 := by
  refine ⟨by decide +kernel, _, _, ⟨1, 1, 4, 2, 5, 6, 0, 4⟩, rfl, ?_, rfl, ?_, ?_⟩
  · decide +kernel
  · simp [General, A8.pt, area2]
    norm_num
  · decide +kernel

end Nx
