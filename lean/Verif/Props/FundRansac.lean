import Verif.Props.HomRansac
import Verif.Props.Fundamental

/-!
# C72: robust estimation of fundamental matrices
-/

namespace Nx

theorem select8Loop_sub (n first : Nat) : ∀ (k : Nat) (rest : List Nat) (vs : List (BitVec 32)) (ids : List Nat)
    (vs' : List (BitVec 32)), select8Loop n first k rest vs = some (ids, vs') → ∀ v ∈ vs', v ∈ vs
  | 0, _, vs, _, _, h => by
    rw [select8Loop] at h
    cases h
    exact fun v hv => hv
  | _ + 1, _, [], _, _, h => by simp [select8Loop] at h
  | k + 1, rest, w :: vs, ids, vs', h => by
    rw [select8Loop] at h
    split at h
    · exact fun v hv => List.mem_cons_of_mem _ (select8Loop_sub n first (k + 1) rest vs ids vs' h v hv)
    · exact fun v hv => List.mem_cons_of_mem _ (select8Loop_sub n first k _ vs ids vs' h v hv)
termination_by _ _ vs => vs.length

theorem select8Loop_head (n first : Nat) : ∀ (k : Nat) (rest : List Nat) (vs : List (BitVec 32)) (ids : List Nat)
    (vs' : List (BitVec 32)), select8Loop n first k rest vs = some (ids, vs') → ∃ is, ids = first :: is
  | 0, rest, vs, _, _, h => by
    rw [select8Loop] at h
    cases h
    exact ⟨rest, rfl⟩
  | _ + 1, _, [], _, _, h => by simp [select8Loop] at h
  | k + 1, rest, w :: vs, ids, vs', h => by
    rw [select8Loop] at h
    split at h
    · exact select8Loop_head n first (k + 1) rest vs ids vs' h
    · exact select8Loop_head n first k _ vs ids vs' h
termination_by _ _ vs => vs.length

theorem selectProsac8_sub {n : Nat} {vs vs' : List (BitVec 32)} {ids : List Nat}
    (h : selectProsac8 n vs = some (ids, vs')) : ∀ v ∈ vs', v ∈ vs := by
  unfold selectProsac8 at h
  simp only [Option.bind_eq_bind, Option.bind_eq_some_iff, Prod.exists] at h
  obtain ⟨a, v1, h1, h2⟩ := h
  intro v hv
  exact drawUntil_sub h1 v (select8Loop_sub _ _ _ _ _ _ _ h2 v hv)

/-- The matches at some positions. -/
theorem matches_at {α : Type} (l : List α) : ∀ ids : List Nat, (∀ i ∈ ids, i < l.length) →
    ∃ cs : List α, cs.length = ids.length ∧ (∀ c ∈ cs, c ∈ l) ∧
      ∀ k i : Nat, ids[k]? = some i → ∃ c, cs[k]? = some c ∧ l[i]? = some c
  | [], _ => ⟨[], rfl, by simp, by simp⟩
  | i :: is, h => by
    obtain ⟨cs, h1, h2, h3⟩ := matches_at l is (fun j hj => h j (List.mem_cons_of_mem _ hj))
    have hi := h i (by simp)
    refine ⟨l[i] :: cs, by simp [h1], ?_, ?_⟩
    · intro c hc
      rcases List.mem_cons.mp hc with rfl | hc
      · exact List.getElem_mem hi
      · exact h2 c hc
    · intro k j hk
      cases k with
      | zero =>
        simp only [List.getElem?_cons_zero, Option.some.injEq] at hk
        subst hk
        exact ⟨l[i], rfl, List.getElem?_eq_getElem hi⟩
      | succ k =>
        simp only [List.getElem?_cons_succ] at hk ⊢
        exact h3 k j hk

theorem readI_at {α : Type} {l : List α} {i : Nat} {c : α} (h : l[i]? = some c) : readI l (i : Int) = .ok c := by
  rw [readI, if_pos (by omega), readAt, Int.toNat_natCast, h]

variable {svd : List (Fin 9 → ℝ) → (Fin 9 → Fin 9 → ℝ) × List ℝ} {svd3 : M3 ℝ → M3 ℝ × V3 ℝ × M3 ℝ}
  {qsort : List (PMatch ℝ) → List (PMatch ℝ)}

/-- The estimation from eight of the matches. -/
theorem fund8_at (F : M3 ℝ) {ids : List Nat} (h8 : ids.length = 8) {corr : List (PMatch ℝ)}
    (hi : ∀ i ∈ ids, i < corr.length) :
    ∃ cs : List (PMatch ℝ), cs.length = 8 ∧ (∀ k i : Nat, ids[k]? = some i → ∃ c, cs[k]? = some c ∧ corr[i]? = some c) ∧
      fundEstimate8pt svd svd3 (ids.map Int.ofNat) corr = fundEstimate svd svd3 F cs.length cs := by
  obtain ⟨cs, h1, -, h3⟩ := matches_at corr ids hi
  refine ⟨cs, by omega, h3, ?_⟩
  apply c66_8pt F _ _ _ (by simp [h8]) (by omega)
  intro k j c hk hc
  rw [List.getElem?_map] at hk
  cases hik : ids[k]? with
  | none => rw [hik] at hk; cases hk
  | some i =>
    rw [hik] at hk
    simp only [Option.map_some, Option.some.injEq] at hk
    subst hk
    obtain ⟨c', e1, e2⟩ := h3 k i hik
    rw [hc] at e1
    cases e1
    exact readI_at e2

theorem fundRowsAt_congr {corr corr' : List (PMatch ℝ)} (h1 : corr.map fundConstraint = corr'.map fundConstraint) :
    ∀ (ids : List Int) (r : List (Fin 9 → ℝ)), fundRowsAt corr ids = .ok r → fundRowsAt corr' ids = .ok r
  | [], _, h => h
  | i :: is, r, h => by
    simp only [fundRowsAt, Res.bind_eq_ok, Res.pure_eq, Res.ok.injEq] at h ⊢
    obtain ⟨c, hc, q, hq, rfl⟩ := h
    obtain ⟨c', e1, e2⟩ := readI_map fundConstraint _ _ h1 i c hc
    exact ⟨c', e1, q, fundRowsAt_congr h1 is q hq, by rw [e2]⟩

theorem fund8_congr {n : Nat} {corr corr' : List (PMatch ℝ)} (hu : unmark n corr = unmark n corr') {ids : List Int}
    {e : Estimate ℝ} (h : fundEstimate8pt svd svd3 ids corr = .ok e) : fundEstimate8pt svd svd3 ids corr' = .ok e := by
  rw [fundEstimate8pt] at h ⊢
  simp only [Res.bind_eq_ok, Res.pure_eq, Res.ok.injEq] at h ⊢
  obtain ⟨r, hr, rfl⟩ := h
  exact ⟨r, fundRowsAt_congr (unmark_maps _ (fun _ => rfl) hu) ids r hr, rfl⟩

theorem proposeFund_done {corr : List (PMatch ℝ)} {t : Nat} {rnd rnd' : List (BitVec 32)} {g : M3 ℝ}
    (h : proposeFund svd svd3 corr t rnd = .ok (.done (g, rnd'))) :
    ∃ ids s, selectProsac8 t rnd = some (ids, rnd') ∧ fundEstimate8pt svd svd3 (ids.map Int.ofNat) corr = .ok (g, s) := by
  rw [proposeFund] at h
  cases hs : selectProsac8 t rnd with
  | none => rw [hs] at h; cases h
  | some p =>
    obtain ⟨ids, r⟩ := p
    rw [hs] at h
    simp only at h
    obtain ⟨e, he, h⟩ := Res.bind_eq_ok.mp h
    cases h
    exact ⟨ids, e.2, rfl, he⟩

theorem proposeFund_sub : SubRnd fun nTop (_ : M3 ℝ) corr rnd => proposeFund svd svd3 corr nTop rnd := by
  intro t h c r h' r' he
  obtain ⟨ids, s, h1, -⟩ := proposeFund_done he
  exact selectProsac8_sub h1

theorem proposeFund_total (corr : List (PMatch ℝ)) (t : Nat) (h0 : 0 < t) (h1 : t ≤ 16777216) (h2 : t ≤ corr.length)
    (rnd : List (BitVec 32)) (hr : ∀ v ∈ rnd, v.toNat < 4294967168) : ∃ p, proposeFund svd svd3 corr t rnd = .ok p := by
  rw [proposeFund]
  cases hs : selectProsac8 t rnd with
  | none => exact ⟨_, rfl⟩
  | some p =>
    obtain ⟨ids, r⟩ := p
    obtain ⟨h8, -, -, hlt⟩ := c69_select8_partial _ _ _ _ hs
    obtain ⟨cs, c1, -, c3⟩ := fund8_at (svd := svd) (svd3 := svd3) dmat3Eye h8 (corr := corr)
      (fun i hi => lt_of_lt_of_le (hlt h0 h1 hr i hi) h2)
    simp only [c3, fundEstimate_eq dmat3Eye cs (by omega)]
    exact ⟨_, rfl⟩

/-- The test of `nx_fundamental_mark_inliers`. -/
noncomputable def fTest (tol : ℝ) (F : M3 ℝ) (c : PMatch ℝ) : Bool := lessThan (epipolarDistance Real.sqrt F c) tol

theorem fTest_iff (tol : ℝ) (F : M3 ℝ) (c : PMatch ℝ) : fTest tol F c = true ↔ EpiWithin F.mat c.x c.xp tol :=
  lessThan_iff F c tol

theorem fTest_blind (tol : ℝ) (F : M3 ℝ) : Blind (fTest tol F) := fun _ => rfl

/-- The new estimation from the marked matches. -/
noncomputable def fRefit (svd : List (Fin 9 → ℝ) → (Fin 9 → Fin 9 → ℝ) × List ℝ) (svd3 : M3 ℝ → M3 ℝ × V3 ℝ × M3 ℝ)
    (n : Int) (F : M3 ℝ) (corr : List (PMatch ℝ)) : Res (M3 ℝ) :=
  (fundEstimateInliers svd svd3 F n corr).bind fun e => .ok e.1

theorem fRefit_markAll (test : PMatch ℝ → Bool) (n : Nat) (c0 : List (PMatch ℝ)) (hn : n ≤ c0.length) (F : M3 ℝ) :
    ∃ F', fRefit svd svd3 n F (markAll test n c0) = .ok F' := by
  have := congrArg List.length (unmark_markAll (test := test) hn)
  rw [unmark_length, unmark_length] at this
  rw [fRefit, c66_inliers F n _ (by omega)]
  by_cases h8 : 8 ≤ (((markAll test n c0).take n).filter fun c => c.inlier).length
  · rw [fundEstimate_eq _ _ h8]
    exact ⟨_, rfl⟩
  · rw [fundEstimate, if_pos (by omega)]
    exact ⟨_, rfl⟩

theorem fundamentalRansac_eq (F : M3 ℝ) (n : Nat) (h8 : 8 ≤ n) (corr : List (PMatch ℝ)) (tol : ℝ) (maxIter : Int)
    (rnd : List (BitVec 32)) :
    fundamentalRansac Real.sqrt svd svd3 qsort F n corr tol maxIter rnd
      = ransacCore 100 n maxIter qsort (fun nTop _ corr rnd => proposeFund svd svd3 corr nTop rnd)
        (fun F corr => markLoop (fTest tol F) n corr 0) (fRefit svd svd3 n) F corr rnd := by
  rw [fundamentalRansac, if_neg (by omega)]
  simp only [fundMarkInliers, Int.toNat_natCast]
  rfl

/-- With less than eight matches nothing is changed and zero is returned. -/
theorem c72_few (F : M3 ℝ) (n : Int) (hn : n < 8) (corr : List (PMatch ℝ)) (tol : ℝ) (maxIter : Int)
    (rnd : List (BitVec 32)) :
    fundamentalRansac Real.sqrt svd svd3 qsort F n corr tol maxIter rnd = .ok (.done ⟨F, corr, 0, []⟩) := by
  rw [fundamentalRansac, if_pos hn]

theorem fund_outcome (hq : ∀ l, (qsort l).Perm l) {F : M3 ℝ} {n : Nat} (h8 : 8 ≤ n) {corr : List (PMatch ℝ)}
    (hn : n ≤ corr.length) {tol : ℝ} {maxIter : Int} {rnd : List (BitVec 32)} {o : ROut ℝ}
    (he : fundamentalRansac Real.sqrt svd svd3 qsort F n corr tol maxIter rnd = .ok (.done o)) :
    RSpec (fun nTop (_ : M3 ℝ) corr rnd => proposeFund svd svd3 corr nTop rnd) (fTest tol) (fRefit svd svd3 n) 100 n
        maxIter.toNat (sorted0 qsort n corr) rnd o ∧
      ROutcome (fun F c => EpiWithin F.mat c.x c.xp tol) (fRefit svd svd3 n) n maxIter.toNat corr o := by
  have hl : n ≤ (sorted0 qsort n corr).length := by rw [sorted0_length hq]; exact hn
  rw [fundamentalRansac_eq F n h8] at he
  have hs := ransacCore_spec proposeFund_sub (fTest_blind tol) hq hn (by omega) (fun g => fRefit_markAll _ _ _ hl g) F rnd o he
  exact ⟨hs, rspec_outcome (fTest_blind tol) (fTest_iff tol) hq hn hs⟩

/-- What `nx_fundamental_estimate_ransac` leaves: the first `n` matches are permuted, and marked iff they are less than the
tolerance away from their epipolar line; the number of marks is returned. -/
theorem c72_result (hq : ∀ l, (qsort l).Perm l) (F : M3 ℝ) (n : Nat) (h8 : 8 ≤ n) (corr : List (PMatch ℝ))
    (hn : n ≤ corr.length) (tol : ℝ) (maxIter : Int) (rnd : List (BitVec 32)) (o : ROut ℝ)
    (he : fundamentalRansac Real.sqrt svd svd3 qsort F n corr tol maxIter rnd = .ok (.done o)) :
    MarkedBy (fun c => EpiWithin o.h.mat c.x c.xp tol) n corr o.corr ∧ o.count = nMarked n o.corr ∧
      o.count = nWith (fun c => EpiWithin o.h.mat c.x c.xp tol) n corr := by
  obtain ⟨-, ho⟩ := fund_outcome hq h8 hn he
  exact ⟨ho.marks, ho.count, ho.count.trans ho.same⟩

/-- The returned matrix: some best of at most `maxIter` hypotheses if it has at most six inliers, else one that is estimated from the
inliers of a matrix that has at least as many inliers as the best hypothesis (or is this matrix itself if it has seven). -/
theorem c72_best (hs : SvdContract svd) (hs3 : Svd3Contract svd3) (hq : ∀ l, (qsort l).Perm l) (F : M3 ℝ) (n : Nat)
    (h8 : 8 ≤ n) (corr : List (PMatch ℝ)) (hn : n ≤ corr.length) (tol : ℝ) (maxIter : Int) (rnd : List (BitVec 32))
    (o : ROut ℝ) (he : fundamentalRansac Real.sqrt svd svd3 qsort F n corr tol maxIter rnd = .ok (.done o)) :
    o.hyps.length ≤ maxIter.toNat ∧
    ∃ hb ∈ o.hyps, 0 < nWith (fun c => EpiWithin hb.mat c.x c.xp tol) n corr ∧
      (∀ g ∈ o.hyps, nWith (fun c => EpiWithin g.mat c.x c.xp tol) n corr
        ≤ nWith (fun c => EpiWithin hb.mat c.x c.xp tol) n corr) ∧
      ((o.h = hb ∧ nWith (fun c => EpiWithin hb.mat c.x c.xp tol) n corr ≤ 6) ∨
        ∃ (h1 : M3 ℝ) (corr1 : List (PMatch ℝ)), MarkedBy (fun c => EpiWithin h1.mat c.x c.xp tol) n corr corr1 ∧
          nMarked n corr1 = nWith (fun c => EpiWithin h1.mat c.x c.xp tol) n corr ∧
          nWith (fun c => EpiWithin hb.mat c.x c.xp tol) n corr ≤ nMarked n corr1 ∧ 7 ≤ nMarked n corr1 ∧
          (nMarked n corr1 = 7 → o.h = h1) ∧
          (8 ≤ nMarked n corr1 → ∃ F0 : Matrix (Fin 3) (Fin 3) ℝ, frobSq F0 = 1 ∧
            (∀ A, frobSq A = 1 → epiError F0 ((corr1.take n).filter fun c => c.inlier)
              ≤ epiError A ((corr1.take n).filter fun c => c.inlier)) ∧
            o.h.mat.det = 0 ∧ ∀ A : Matrix (Fin 3) (Fin 3) ℝ, A.det = 0 → frobSq (F0 - o.h.mat) ≤ frobSq (F0 - A)) ∧
          o.count ≤ nMarked n corr1 + 5) := by
  obtain ⟨-, ho⟩ := fund_outcome hq h8 hn he
  refine ⟨ho.iter, ?_⟩
  obtain ⟨hb, b1, b2, b3, b4⟩ := ho.best
  refine ⟨hb, b1, b2, b3, ?_⟩
  rcases b4 with b4 | ⟨h1, corr1, d1, d2, d3, d4, d5, d6, d7⟩
  · exact .inl b4
  · rw [fRefit, c66_inliers _ _ _ (by omega)] at d6
    have hlen : ((corr1.take n).filter fun c => c.inlier).length = nMarked n corr1 := by
      rw [nMarked, List.countP_eq_length_filter]
    refine .inr ⟨h1, corr1, d3, d4, by omega, by omega, ?_, ?_, by rw [ho.count, ho.same, d4]; exact d7⟩
    · intro h7
      rw [fundEstimate, if_pos (by omega)] at d6
      cases d6
      rfl
    · intro h8'
      obtain ⟨F', s, F0, f1, f2, f3, f4, f5⟩ := c66_estimate hs hs3 h1 ((corr1.take n).filter fun c => c.inlier) (by omega)
      rw [f1] at d6
      cases d6
      exact ⟨F0, f2, f3, f4, f5⟩

/-- Every hypothesis is the result of `nx_fundamental_estimate_8pt` for eight of the matches (if no random number is one of those for
which the sampler leaves its range). -/
theorem c72_hyps (hq : ∀ l, (qsort l).Perm l) (F : M3 ℝ) (n : Nat) (h8 : 8 ≤ n) (h24 : n ≤ 16777216)
    (corr : List (PMatch ℝ)) (hn : n ≤ corr.length) (tol : ℝ) (maxIter : Int) (rnd : List (BitVec 32))
    (hr : ∀ v ∈ rnd, v.toNat < 4294967168) (o : ROut ℝ)
    (he : fundamentalRansac Real.sqrt svd svd3 qsort F n corr tol maxIter rnd = .ok (.done o)) (g : M3 ℝ) (hg : g ∈ o.hyps) :
    ∃ (ids : List Nat) (s : SVal ℝ), ids.length = 8 ∧ (∀ i ∈ ids, i < n) ∧
      fundEstimate8pt svd svd3 (ids.map Int.ofNat) (sorted0 qsort n corr) = .ok (g, s) := by
  obtain ⟨ho, -⟩ := fund_outcome hq h8 hn he
  obtain ⟨t, h0, c, r, r', p1, p2, p3, p4, p5⟩ := ho.hyps g hg
  obtain ⟨ids, s, s1, s2⟩ := proposeFund_done p1
  obtain ⟨l8, -, -, hlt⟩ := c69_select8_partial _ _ _ _ s1
  exact ⟨ids, s, l8, fun i hi => lt_of_lt_of_le (hlt (p3 (by omega)) (by omega) (fun v hv => hr v (p5 v hv)) i hi) p2,
    fund8_congr p4 s2⟩

/-- Without an iteration the uninitialised array of the best hypothesis is used. -/
theorem c72_uninit (F : M3 ℝ) (n : Nat) (h8 : 8 ≤ n) (corr : List (PMatch ℝ)) (hn : n ≤ corr.length) (tol : ℝ)
    (maxIter : Int) (hi : maxIter ≤ 0) (rnd : List (BitVec 32)) :
    fundamentalRansac Real.sqrt svd svd3 qsort F n corr tol maxIter rnd = .ub := by
  rw [fundamentalRansac_eq F n h8, ransacCore, sortFirst, if_pos hn]
  have e : maxIter.toNat = 0 := by omega
  simp only [Res.bind, e, ransacLoop, ransacFinish]

/-- Nor does the function finish with a tolerance of zero or less. -/
theorem c72_zero (hq : ∀ l, (qsort l).Perm l) (F : M3 ℝ) (n : Nat) (h8 : 8 ≤ n) (corr : List (PMatch ℝ))
    (hn : n ≤ corr.length) (tol : ℝ) (ht : tol ≤ 0) (maxIter : Int) (rnd : List (BitVec 32)) (o : ROut ℝ) :
    fundamentalRansac Real.sqrt svd svd3 qsort F n corr tol maxIter rnd ≠ .ok (.done o) := by
  intro he
  obtain ⟨-, ho⟩ := fund_outcome hq h8 hn he
  obtain ⟨hb, -, b2, -⟩ := ho.best
  rw [nWith, List.countP_pos_iff] at b2
  obtain ⟨c, -, hc⟩ := b2
  simp only [decide_eq_true_eq] at hc
  obtain ⟨-, q, -, hlt⟩ := hc
  have := Real.sqrt_nonneg ((q.1 - c.xp.1) ^ 2 + (q.2 - c.xp.2) ^ 2)
  linarith

/-- Otherwise, if the random numbers are in the range of the sampler, there is no undefined behaviour, unless no hypothesis of
the main loop has an inlier. -/
theorem c72_safe_partial (hq : ∀ l, (qsort l).Perm l) (F : M3 ℝ) (n : Nat) (h8 : 8 ≤ n) (h24 : n ≤ 16777216)
    (corr : List (PMatch ℝ)) (hn : n ≤ corr.length) (tol : ℝ) (maxIter : Int) (rnd : List (BitVec 32))
    (hr : ∀ v ∈ rnd, v.toNat < 4294967168) :
    (∃ r, fundamentalRansac Real.sqrt svd svd3 qsort F n corr tol maxIter rnd = .ok r) ∨
    (fundamentalRansac Real.sqrt svd svd3 qsort F n corr tol maxIter rnd = .ub ∧
      ∃ s, ransacLoop 100 n (fun nTop _ corr rnd => proposeFund svd svd3 corr nTop rnd)
          (fun F corr => fundMarkInliers Real.sqrt F n corr tol)
          maxIter.toNat ⟨F, none, 0, 0, sorted0 qsort n corr, if 10 > n then n else 10, rnd, []⟩ = .ok (.done s) ∧
        ∀ g ∈ s.hyps, ∀ c ∈ corr.take n, ¬ EpiWithin g.mat c.x c.xp tol) := by
  have hl : n ≤ (sorted0 qsort n corr).length := by rw [sorted0_length hq]; exact hn
  rw [fundamentalRansac_eq F n h8]
  rcases ransacCore_safe (limit := 100) (maxIter := maxIter) (Q := fun v => v.toNat < 4294967168) (proposeFund_sub (svd := svd) (svd3 := svd3))
    (fTest_blind tol) hq hn (by omega) (fun g => fRefit_markAll (svd := svd) (svd3 := svd3) _ _ _ hl g) (by
      intro t g c r ht1 ht2 hc hv
      have : c.length = (sorted0 qsort n corr).length := by
        have := congrArg List.length hc
        rwa [unmark_length, unmark_length] at this
      exact proposeFund_total c t (ht2 (by omega)) (by omega) (by omega) r hv) F rnd hr with ⟨r, e⟩ | ⟨e, s, e', hz⟩
  · exact .inl ⟨r, e⟩
  · refine .inr ⟨e, s, e', ?_⟩
    intro g hg c hc hw
    have h0 := hz g hg
    rw [score_nWith (fTest_iff tol g) hq hn, nWith, List.countP_eq_zero] at h0
    exact h0 c hc (by simpa using hw)

/-- An exact match is an inlier if its epipolar line is a line of the plane. -/
theorem exact_epiWithin {A B : Matrix (Fin 3) (Fin 3) ℝ} {k : ℝ} (hk : k ≠ 0) (hA : A = k • B) {p q : ℝ × ℝ}
    (h0 : epiForm B p q = 0) (hline : ¬ (B.mulVec (hom2 p) 0 = 0 ∧ B.mulVec (hom2 p) 1 = 0)) {tol : ℝ} (ht : 0 < tol) :
    EpiWithin A p q tol := by
  subst hA
  refine ⟨?_, q, ?_, ?_⟩
  · rw [Matrix.smul_mulVec]
    simpa [hk] using hline
  · rw [epiForm_smul, h0, mul_zero]
  · simpa using ht

/-- If a singular matrix is, up to scale, the only one whose epipolar constraints all matches satisfy, its epipolar lines are lines of
the plane, and some hypothesis has all matches as inliers, then the result is this matrix up to scale and all matches
are marked. -/
theorem c72_recover_partial (hs : SvdContract svd) (hs3 : Svd3Contract svd3) (hq : ∀ l, (qsort l).Perm l) (F : M3 ℝ)
    (n : Nat) (h8 : 8 ≤ n) (corr : List (PMatch ℝ)) (hn : n ≤ corr.length) (tol : ℝ) (ht : 0 < tol) (maxIter : Int)
    (rnd : List (BitVec 32)) (B : Matrix (Fin 3) (Fin 3) ℝ) (hB0 : B ≠ 0) (hd : B.det = 0)
    (hB : ∀ c ∈ corr.take n, epiForm B c.x c.xp = 0)
    (hline : ∀ c ∈ corr.take n, ¬ (B.mulVec (hom2 c.x) 0 = 0 ∧ B.mulVec (hom2 c.x) 1 = 0))
    (hu : ∀ A : Matrix (Fin 3) (Fin 3) ℝ, (∀ c ∈ corr.take n, epiForm A c.x c.xp = 0) → ∃ k : ℝ, A = k • B) (o : ROut ℝ)
    (he : fundamentalRansac Real.sqrt svd svd3 qsort F n corr tol maxIter rnd = .ok (.done o))
    (hall : ∃ g ∈ o.hyps, ∀ c ∈ corr.take n, EpiWithin g.mat c.x c.xp tol) :
    (∃ k : ℝ, k ≠ 0 ∧ o.h.mat = k • B) ∧ (∀ c ∈ o.corr.take n, c.inlier = true) ∧ o.count = n := by
  obtain ⟨hr, ho⟩ := fund_outcome hq h8 hn he
  have hl : n ≤ (sorted0 qsort n corr).length := by rw [sorted0_length hq]; exact hn
  have hmem : ∀ d, d ∈ (sorted0 qsort n corr).take n ↔ d ∈ corr.take n := by
    intro d
    rw [sorted0_take hq hn]
    exact (hq _).mem_iff
  obtain ⟨g, hg1, hg2⟩ := hall
  obtain ⟨r1, r2⟩ := rspec_recover hr (by omega) (Good := fun h' => ∃ k : ℝ, k ≠ 0 ∧ h'.mat = k • B)
    ⟨g, hg1, (score_all hl).mpr fun d hd => (fTest_iff tol g d).mpr (hg2 d ((hmem d).mp hd))⟩ (by
      intro a b ha hb
      have hm : n ≤ (markAll (fTest tol a) n (sorted0 qsort n corr)).length := by
        have := congrArg List.length (unmark_markAll (test := fTest tol a) hl)
        rw [unmark_length, unmark_length] at this
        omega
      rw [fRefit, c66_inliers _ _ _ hm, filter_markAll hl ha] at hb
      have hmap : ∀ A : Matrix (Fin 3) (Fin 3) ℝ,
          (∀ d ∈ ((sorted0 qsort n corr).take n).map (fun c : PMatch ℝ => { c with inlier := true }),
            epiForm A d.x d.xp = 0) ↔ ∀ d ∈ corr.take n, epiForm A d.x d.xp = 0 := by
        intro A
        constructor
        · intro hA d hd
          exact hA { d with inlier := true } (List.mem_map.mpr ⟨d, (hmem d).mpr hd, rfl⟩)
        · intro hA d hd
          rw [List.mem_map] at hd
          obtain ⟨e, he, rfl⟩ := hd
          exact hA e ((hmem e).mp he)
      obtain ⟨F', s, k, f1, f2, f3⟩ := c66_exact hs hs3 a _ (by rw [List.length_map, List.length_take]; omega) B hB0 hd
        ((hmap B).mpr hB) (fun A hA => hu A ((hmap A).mp hA))
      rw [f1] at hb
      cases hb
      refine ⟨⟨k, f2, f3⟩, ?_⟩
      rw [score_all hl]
      intro d hd
      rw [fTest_iff]
      exact exact_epiWithin f2 f3 (hB d ((hmem d).mp hd)) (hline d ((hmem d).mp hd)) ht)
  refine ⟨r1, ?_, r2⟩
  rw [hr.corr, markAll_take hl]
  intro d hd
  rw [hr.count] at r2
  rw [marked, List.mem_map] at hd
  obtain ⟨d', hd', rfl⟩ := hd
  exact (score_all hl).mp r2 d' hd'

/-- A good first selection suffices: eight matches whose epipolar constraints no other matrix satisfies. -/
theorem c72_recover_first (hs : SvdContract svd) (hs3 : Svd3Contract svd3) (hq : ∀ l, (qsort l).Perm l) (F : M3 ℝ)
    (n : Nat) (h8 : 8 ≤ n) (corr : List (PMatch ℝ)) (hn : n ≤ corr.length) (tol : ℝ) (ht : 0 < tol) (maxIter : Int)
    (hi : 1 ≤ maxIter) (rnd : List (BitVec 32)) (B : Matrix (Fin 3) (Fin 3) ℝ) (hB0 : B ≠ 0) (hd : B.det = 0)
    (hB : ∀ c ∈ corr.take n, epiForm B c.x c.xp = 0)
    (hline : ∀ c ∈ corr.take n, ¬ (B.mulVec (hom2 c.x) 0 = 0 ∧ B.mulVec (hom2 c.x) 1 = 0)) (o : ROut ℝ)
    (he : fundamentalRansac Real.sqrt svd svd3 qsort F n corr tol maxIter rnd = .ok (.done o))
    (ids : List Nat) (rnd' : List (BitVec 32)) (hsel : selectProsac8 (min n 10) rnd = some (ids, rnd'))
    (hlt : ∀ i ∈ ids, i < n)
    (hu : ∀ A : Matrix (Fin 3) (Fin 3) ℝ,
      (∀ i ∈ ids, ∀ c, (sorted0 qsort n corr)[i]? = some c → epiForm A c.x c.xp = 0) → ∃ k : ℝ, A = k • B) :
    (∃ k : ℝ, k ≠ 0 ∧ o.h.mat = k • B) ∧ (∀ c ∈ o.corr.take n, c.inlier = true) ∧ o.count = n := by
  have hl : n ≤ (sorted0 qsort n corr).length := by rw [sorted0_length hq]; exact hn
  have hmem : ∀ d, d ∈ (sorted0 qsort n corr).take n ↔ d ∈ corr.take n := by
    intro d
    rw [sorted0_take hq hn]
    exact (hq _).mem_iff
  have hin : ∀ i ∈ ids, ∀ c, (sorted0 qsort n corr)[i]? = some c → c ∈ corr.take n := by
    intro i hi' c hc
    rw [← hmem]
    apply List.mem_of_getElem? (i := i)
    rw [List.getElem?_take_of_lt (hlt i hi'), hc]
  obtain ⟨l8, -⟩ := c69_select8_partial _ _ _ _ hsel
  obtain ⟨cs, c1, c2, c3⟩ := fund8_at (svd := svd) (svd3 := svd3) F l8 (corr := sorted0 qsort n corr)
    (fun i hi' => lt_of_lt_of_le (hlt i hi') hl)
  have hcs : ∀ c ∈ cs, ∃ i ∈ ids, (sorted0 qsort n corr)[i]? = some c := by
    intro c hc
    obtain ⟨k, hk, e⟩ := List.getElem_of_mem hc
    have hk' : k < ids.length := by omega
    obtain ⟨c', e1, e2⟩ := c2 k ids[k] (List.getElem?_eq_getElem hk')
    rw [List.getElem?_eq_getElem hk, e] at e1
    cases e1
    exact ⟨ids[k], List.getElem_mem hk', e2⟩
  obtain ⟨F', s, k, f1, f2, f3⟩ := c66_exact hs hs3 F cs (by omega) B hB0 hd
    (fun c hc => by
      obtain ⟨i, h1, h2⟩ := hcs c hc
      exact hB c (hin i h1 c h2))
    (fun A hA => hu A fun i hi' c hc => by
      obtain ⟨k, hk, e⟩ := List.getElem_of_mem hi'
      obtain ⟨c', e1, e2⟩ := c2 k i (by rw [List.getElem?_eq_getElem hk, e])
      rw [hc] at e2
      cases e2
      exact hA c (List.mem_of_getElem? e1))
  rw [← c3] at f1
  have hfirst : F' ∈ o.hyps := by
    rw [fundamentalRansac_eq F n h8] at he
    refine ransacCore_first proposeFund_sub (fTest_blind tol) hq hn (by omega) (fun g => fRefit_markAll _ _ _ hl g) F rnd o
      he hi (by decide) F' rnd' ?_
    have hmin : (if 10 > n then n else 10) = min n 10 := by split <;> omega
    simp only [hmin, proposeFund, hsel, f1]
    rfl
  refine c72_recover_partial hs hs3 hq F n h8 corr hn tol ht maxIter rnd B hB0 hd hB hline
    (fun A hA => hu A fun i hi' c hc => hA c (hin i hi' c hc)) o he ⟨F', hfirst, ?_⟩
  intro c hc
  exact exact_epiWithin f2 f3 (hB c hc) (hline c hc) ht

/-- The random numbers for which the sampler leaves its range make the function read behind the matches. -/
theorem c72_out_of_bounds (hq : ∀ l, (qsort l).Perm l) (F : M3 ℝ) (corr : List (PMatch ℝ)) (h8 : 8 ≤ corr.length)
    (h10 : corr.length ≤ 10) (tol : ℝ) (maxIter : Int) (hi : 1 ≤ maxIter) (v : BitVec 32) (rnd : List (BitVec 32))
    (hv : 4294967168 ≤ v.toNat) (hsel : selectProsac8 corr.length (v :: rnd) ≠ none) :
    fundamentalRansac Real.sqrt svd svd3 qsort F corr.length corr tol maxIter (v :: rnd) = .ub := by
  obtain ⟨k, hk⟩ : ∃ k, maxIter.toNat = k + 1 := ⟨maxIter.toNat - 1, by omega⟩
  have htop : (if 10 > corr.length then corr.length else 10) = corr.length := by split <;> omega
  have hp : proposeFund svd svd3 (sorted0 qsort corr.length corr) corr.length (v :: rnd) = .ub := by
    rw [proposeFund]
    cases hs : selectProsac8 corr.length (v :: rnd) with
    | none => exact absurd hs hsel
    | some p =>
      obtain ⟨ids, vs⟩ := p
      have hids : ∃ is, ids = corr.length :: is := by
        unfold selectProsac8 at hs
        simp only [Option.bind_eq_bind, Option.bind_eq_some_iff, Prod.exists] at hs
        obtain ⟨a, v1, h1, h2⟩ := hs
        rw [drawUntil, if_neg Bool.false_ne_true, Option.some.injEq, Prod.mk.injEq] at h1
        rw [c69_index_out _ _ (by omega) hv] at h1
        rw [← h1.1] at h2
        exact select8Loop_head _ _ _ _ _ _ _ h2
      obtain ⟨is, rfl⟩ := hids
      have hr : readI (sorted0 qsort corr.length corr) (Int.ofNat corr.length) = .ub := by
        have := sorted0_length hq corr.length corr
        rw [readI, if_pos (by simp), show (Int.ofNat corr.length).toNat = corr.length from rfl, readAt, List.getElem?_eq_none (by omega)]
      simp only [fundEstimate8pt, List.map_cons, fundRowsAt, hr]
      rfl
  rw [fundamentalRansac_eq F corr.length h8, ransacCore, sortFirst, if_pos le_rfl]
  simp only [Res.bind, hk, ransacLoop, htop]
  rw [← sorted0, hp]
  rfl

/-- Normalisation keeps the form. -/
theorem epiForm_norm (st : MStats ℝ) (M : Matrix (Fin 3) (Fin 3) ℝ) (p q : ℝ × ℝ) :
    epiForm ((normMat st.mp st.dp).transpose * M * normMat st.m st.d) p q
      = epiForm M (normPt st.m st.d p) (normPt st.mp st.dp q) := by
  rw [epiForm, epiForm, ← Matrix.mulVec_mulVec, ← Matrix.mulVec_mulVec, normMat_hom2, Matrix.dotProduct_mulVec,
    Matrix.vecMul_transpose, normMat_hom2]

/-- Normalisation and the direction of the epipolar line. -/
theorem epiLine_norm (st : MStats ℝ) (M : Matrix (Fin 3) (Fin 3) ℝ) (p : ℝ × ℝ) :
    ((normMat st.mp st.dp).transpose * M * normMat st.m st.d).mulVec (hom2 p) 0
        = 1 / st.dp * M.mulVec (hom2 (normPt st.m st.d p)) 0 ∧
      ((normMat st.mp st.dp).transpose * M * normMat st.m st.d).mulVec (hom2 p) 1
        = 1 / st.dp * M.mulVec (hom2 (normPt st.m st.d p)) 1 := by
  rw [← Matrix.mulVec_mulVec, ← Matrix.mulVec_mulVec, normMat_hom2, normMat_eq st.mp]
  generalize M.mulVec (hom2 (normPt st.m st.d p)) = v
  simp [Matrix.mulVec, dotProduct, Fin.sum_univ_three]

/-- The tolerance scales with the distances. -/
theorem c72_tolerance (st : MStats ℝ) (F : M3 ℝ) (hd : 0 < st.dp) (p q : ℝ × ℝ) (tol : ℝ) :
    EpiWithin (denormalizeFundamental st F).mat p q tol ↔
      EpiWithin F.mat (normPt st.m st.d p) (normPt st.mp st.dp q) (tol / st.dp) := by
  rw [c65_fundamental_mat]
  obtain ⟨h0, h1⟩ := epiLine_norm st F.mat p
  have hform := epiForm_norm st F.mat p
  have hinv : (1 / st.dp : ℝ) ≠ 0 := one_div_ne_zero hd.ne'
  have hdist : ∀ r : ℝ × ℝ, Real.sqrt (((normPt st.mp st.dp r).1 - (normPt st.mp st.dp q).1) ^ 2
      + ((normPt st.mp st.dp r).2 - (normPt st.mp st.dp q).2) ^ 2)
        = Real.sqrt ((r.1 - q.1) ^ 2 + (r.2 - q.2) ^ 2) / st.dp := by
    intro r
    have e : ((normPt st.mp st.dp r).1 - (normPt st.mp st.dp q).1) ^ 2
        + ((normPt st.mp st.dp r).2 - (normPt st.mp st.dp q).2) ^ 2
          = ((r.1 - q.1) ^ 2 + (r.2 - q.2) ^ 2) / st.dp ^ 2 := by
      simp only [normPt]
      field_simp
      ring
    rw [e, Real.sqrt_div (add_nonneg (sq_nonneg _) (sq_nonneg _)), Real.sqrt_sq hd.le]
  unfold EpiWithin
  rw [h0, h1]
  simp only [mul_eq_zero, hinv, false_or]
  apply and_congr_right
  intro _
  constructor
  · rintro ⟨r, r1, r2⟩
    refine ⟨normPt st.mp st.dp r, by rw [← hform]; exact r1, ?_⟩
    rw [hdist]
    exact (div_lt_div_iff_of_pos_right hd).mpr r2
  · rintro ⟨r, r1, r2⟩
    have e : normPt st.mp st.dp (st.dp * r.1 + st.mp.1, st.dp * r.2 + st.mp.2) = r := by
      simp [normPt, hd.ne']
    rw [← e] at r1 r2
    rw [hdist] at r2
    exact ⟨_, by rw [hform]; exact r1, (div_lt_div_iff_of_pos_right hd).mp r2⟩

/-- A finished run with normalisation. -/
theorem fundamentalNormRansac_done {F : M3 ℝ} {n : Int} {corr : List (PMatch ℝ)} {tol : ℝ} {maxIter : Int}
    {rnd : List (BitVec 32)} {o : ROut ℝ}
    (he : fundamentalNormRansac Real.sqrt svd svd3 qsort F n corr tol maxIter rnd = .ok (.done o)) :
    ∃ st corr1 o1, normalizeMatches Real.sqrt n corr = .ok (some (st, corr1)) ∧
      fundamentalRansac Real.sqrt svd svd3 qsort F n corr1 (tol / st.dp) maxIter rnd = .ok (.done o1) ∧
      denormalizeMatches st n o1.corr = .ok o.corr ∧ o.h = denormalizeFundamental st o1.h ∧ o.count = o1.count ∧
      o.hyps = o1.hyps := by
  rw [fundamentalNormRansac] at he
  obtain ⟨r, hr, he⟩ := Res.bind_eq_ok.mp he
  cases r with
  | none => cases he
  | some p =>
    obtain ⟨st, corr1⟩ := p
    simp only at he
    obtain ⟨q, hq', he⟩ := Res.bind_eq_ok.mp he
    cases q with
    | starved => cases he
    | nan => cases he
    | done o1 =>
      simp only at he
      obtain ⟨c, hc, he⟩ := Res.bind_eq_ok.mp he
      cases he
      exact ⟨st, corr1, o1, hr, hq', hc, rfl, rfl, rfl⟩

/-- `nx_fundamental_estimate_norm_ransac` leaves the matches with their original coordinates, marked iff they are less than the given
tolerance away from their epipolar line, and returns the number of marks. -/
theorem c72_norm (hq : ∀ l, (qsort l).Perm l) (F : M3 ℝ) (n : Nat) (h8 : 8 ≤ n) (corr : List (PMatch ℝ))
    (hn : n ≤ corr.length) (tol : ℝ) (maxIter : Int) (rnd : List (BitVec 32)) (o : ROut ℝ)
    (he : fundamentalNormRansac Real.sqrt svd svd3 qsort F n corr tol maxIter rnd = .ok (.done o)) :
    MarkedBy (fun c => EpiWithin o.h.mat c.x c.xp tol) n corr o.corr ∧ o.count = nMarked n o.corr := by
  obtain ⟨st, corr1, o1, e1, e2, e3, e4, e5, e6⟩ := fundamentalNormRansac_done he
  obtain ⟨hd, hdp⟩ := normalize_pos (by omega) hn e1
  obtain ⟨t1, t2, t3⟩ := normalizeMatches_take (by omega) hn e1
  obtain ⟨r1, r2, -⟩ := c72_result hq F n h8 corr1 (by omega) _ maxIter rnd o1 e2
  obtain ⟨corr3, f1, f2, f3⟩ := denormalize_markedBy (P := fun c => EpiWithin o.h.mat c.x c.xp tol) hd.ne' hdp.ne' t1 t2
    (by rw [r1.length]; omega) (by
      intro c
      rw [e4, c72_tolerance st o1.h hdp]
      obtain ⟨n1, n2⟩ := norm_unscale st hd.ne' hdp.ne' c
      rw [n1, n2]) r1
  rw [f1] at e3
  cases e3
  exact ⟨f2, by rw [e5, f3, r2]⟩

/-- With one to seven matches zero is returned, but the matrix is changed: it is denormalised although it has not been estimated. -/
theorem c72_norm_few (F : M3 ℝ) (n : Nat) (h8 : n < 8) (h0 : 0 < n) (corr : List (PMatch ℝ)) (hn : n ≤ corr.length)
    (tol : ℝ) (maxIter : Int) (rnd : List (BitVec 32)) (st : MStats ℝ) (corr1 : List (PMatch ℝ))
    (e : normalizeMatches Real.sqrt n corr = .ok (some (st, corr1))) :
    fundamentalNormRansac Real.sqrt svd svd3 qsort F n corr tol maxIter rnd
      = .ok (.done ⟨denormalizeFundamental st F, corr, 0, []⟩) := by
  rw [fundamentalNormRansac, e]
  simp only [Res.bind]
  rw [c72_few F n (by omega)]
  simp only
  rw [(c65_round_trip Real.sqrt n h0 corr corr1 hn st e).2.2.2.2]

/-- The recovery also holds with normalisation. -/
theorem c72_norm_recover_partial (hs : SvdContract svd) (hs3 : Svd3Contract svd3) (hq : ∀ l, (qsort l).Perm l) (F : M3 ℝ)
    (n : Nat) (h8 : 8 ≤ n) (corr : List (PMatch ℝ)) (hn : n ≤ corr.length) (tol : ℝ) (ht : 0 < tol) (maxIter : Int)
    (rnd : List (BitVec 32)) (B : Matrix (Fin 3) (Fin 3) ℝ) (hB0 : B ≠ 0) (hd : B.det = 0)
    (hB : ∀ c ∈ corr.take n, epiForm B c.x c.xp = 0)
    (hline : ∀ c ∈ corr.take n, ¬ (B.mulVec (hom2 c.x) 0 = 0 ∧ B.mulVec (hom2 c.x) 1 = 0))
    (hu : ∀ A : Matrix (Fin 3) (Fin 3) ℝ, (∀ c ∈ corr.take n, epiForm A c.x c.xp = 0) → ∃ k : ℝ, A = k • B) (o : ROut ℝ)
    (he : fundamentalNormRansac Real.sqrt svd svd3 qsort F n corr tol maxIter rnd = .ok (.done o)) (st : MStats ℝ)
    (corr1 : List (PMatch ℝ)) (hst : normalizeMatches Real.sqrt n corr = .ok (some (st, corr1)))
    (hall : ∃ g ∈ o.hyps, ∀ c ∈ corr.take n, EpiWithin (denormalizeFundamental st g).mat c.x c.xp tol) :
    (∃ k : ℝ, k ≠ 0 ∧ o.h.mat = k • B) ∧ ∀ c ∈ o.corr.take n, c.inlier = true := by
  obtain ⟨st', corr1', o1, e1, e2, e3, e4, e5, e6⟩ := fundamentalNormRansac_done he
  rw [hst] at e1
  cases e1
  obtain ⟨hsd, hsdp⟩ := normalize_pos (by omega) hn hst
  obtain ⟨t1, t2, t3⟩ := normalizeMatches_take (by omega) hn hst
  have hi := normMat_inv st.m hsd.ne'
  have hip := congrArg Matrix.transpose (mul_eq_one_comm.mp (normMat_inv st.mp hsdp.ne'))
  rw [Matrix.transpose_mul, Matrix.transpose_one] at hip
  have hi' := mul_eq_one_comm.mp hi
  have hip' := mul_eq_one_comm.mp hip
  generalize hNi : transl2 st.m.1 st.m.2 * scale2 st.d st.d = Ni at hi hi'
  generalize hNpi : (transl2 st.mp.1 st.mp.2 * scale2 st.dp st.dp).transpose = Npi at hip hip'
  have back : (normMat st.mp st.dp).transpose * (Npi * B * Ni) * normMat st.m st.d = B := by
    calc _ = ((normMat st.mp st.dp).transpose * Npi) * B * (Ni * normMat st.m st.d) := by simp only [Matrix.mul_assoc]
      _ = B := by rw [hip', hi, Matrix.one_mul, Matrix.mul_one]
  have hres := c72_recover_partial hs hs3 hq F n h8 corr1 (by omega) (tol / st.dp) (div_pos ht hsdp) maxIter rnd
    (Npi * B * Ni) (by
      intro h0
      rw [h0, Matrix.mul_zero, Matrix.zero_mul] at back
      exact hB0 back.symm) (by rw [Matrix.det_mul, Matrix.det_mul, hd]; ring) (by
      intro d hd
      rw [t1, List.mem_map] at hd
      obtain ⟨a, ha, rfl⟩ := hd
      have := epiForm_norm st (Npi * B * Ni) a.x a.xp
      rw [back, hB a ha] at this
      exact this.symm) (by
      intro d hd
      rw [t1, List.mem_map] at hd
      obtain ⟨a, ha, rfl⟩ := hd
      obtain ⟨l0, l1⟩ := epiLine_norm st (Npi * B * Ni) a.x
      rw [back] at l0 l1
      rintro ⟨z0, z1⟩
      exact hline a ha ⟨by rw [l0]; exact mul_eq_zero_of_right _ z0, by rw [l1]; exact mul_eq_zero_of_right _ z1⟩) (by
      intro A hA
      obtain ⟨k, hk⟩ := hu ((normMat st.mp st.dp).transpose * A * normMat st.m st.d) (by
        intro c hc
        rw [epiForm_norm]
        exact hA (normMatch st c) (by rw [t1]; exact List.mem_map_of_mem hc))
      refine ⟨k, ?_⟩
      calc A = (Npi * (normMat st.mp st.dp).transpose) * A * (normMat st.m st.d * Ni) := by
            rw [hip, hi', Matrix.one_mul, Matrix.mul_one]
        _ = Npi * ((normMat st.mp st.dp).transpose * A * normMat st.m st.d) * Ni := by simp only [Matrix.mul_assoc]
        _ = k • (Npi * B * Ni) := by rw [hk, Matrix.mul_smul, Matrix.smul_mul]) o1 e2 (by
      obtain ⟨g, g1, g2⟩ := hall
      rw [e6] at g1
      refine ⟨g, g1, ?_⟩
      intro d hd
      rw [t1, List.mem_map] at hd
      obtain ⟨a, ha, rfl⟩ := hd
      have := g2 a ha
      rw [c72_tolerance st g hsdp] at this
      exact this)
  obtain ⟨⟨k, hk, hkB⟩, hmk, -⟩ := hres
  refine ⟨⟨k, hk, ?_⟩, ?_⟩
  · rw [e4, c65_fundamental_mat, hkB, Matrix.mul_smul, Matrix.smul_mul, back]
  · obtain ⟨r1, -⟩ := c72_result hq F n h8 corr1 (by omega) _ maxIter rnd o1 e2
    have hlen := r1.length
    rw [denormalizeMatches, Int.toNat_natCast, mapLoop_ok _ _ _ (by omega), Res.ok.injEq] at e3
    have hl : ((o1.corr.take n).map (unscaleMatch st)).length = n := by
      rw [List.length_map, List.length_take]
      omega
    intro d hd
    rw [← e3, List.take_left' hl, List.mem_map] at hd
    obtain ⟨a, ha, rfl⟩ := hd
    exact hmk a ha

/-- The epipolar lines of the eight matches of the exact case are lines of the plane. -/
example : ∀ c ∈ stereo8, ¬ ((crossMat ![1, 0, 0] : Matrix (Fin 3) (Fin 3) ℝ).mulVec (hom2 c.x) 0 = 0 ∧
    (crossMat ![1, 0, 0] : Matrix (Fin 3) (Fin 3) ℝ).mulVec (hom2 c.x) 1 = 0) := by
  simp [stereo8, crossMat, hom2, Matrix.mulVec, dotProduct, Fin.sum_univ_succ]

/-- The same matches with rational coordinates. -/
def stereo8q : List (PMatch ℚ) :=
  [(0, 0, 0), (1, 0, 0), (0, 1, 0), (1, 1, 0), (0, 0, 1), (0, 0, 2), (1, 0, 1), (0, 1, 1)].map
    fun (x, xp, y) => ⟨(x, y), (xp, y), 0, 1, 1, 0, 0, false⟩

/-- A run on these matches: the first selection is that of all eight. -/
example :
    selectProsac8 8 [1, 800000000, 1200000000, 1700000000, 2300000000, 3000000000, 3500000000, 4000000000]
      = some ([0, 1, 2, 3, 4, 5, 6, 7], []) ∧
    fundamentalRansac id (fun _ => (fun _ => ![0, 0, 0, 0, 0, -1, 0, 1, 0], []))
        (fun _ => (⟨0, 0, 1, 0, -1, 0, 1, 0, 0⟩, ⟨1, 1, 0⟩, ⟨0, 0, 1, 1, 0, 0, 0, 1, 0⟩)) id dmat3Eye 8 stereo8q 1 1
        [1, 800000000, 1200000000, 1700000000, 2300000000, 3000000000, 3500000000, 4000000000]
      = .ok (.done ⟨⟨0, 0, 0, 0, 0, 1, 0, -1, 0⟩, stereo8q.map fun c => { c with inlier := true }, 8,
          [⟨0, 0, 0, 0, 0, 1, 0, -1, 0⟩]⟩) := by
  decide +kernel

end Nx
