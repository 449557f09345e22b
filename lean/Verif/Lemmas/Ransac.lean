import Verif.Lemmas.Mark
import Verif.Model.Ransac
import Verif.Spec.Ransac
import Verif.Props.UniformSampler

/-!
# Lemmas about the main loop and the refinement loop of the robust estimations
-/

namespace Nx

section
variable {K : Type}

/-- The list without the marks of its first `n` elements. -/
def unmark (n : Nat) (l : List (PMatch K)) : List (PMatch K) := (l.take n).map PMatch.clear ++ l.drop n

/-- The test does not look at the mark. -/
def Blind (test : PMatch K → Bool) : Prop := ∀ c : PMatch K, test c.clear = test c

/-- The first `n` elements marked with a test. -/
def markAll (test : PMatch K → Bool) (n : Nat) (l : List (PMatch K)) : List (PMatch K) :=
  marked test (l.take n) ++ l.drop n

/-- The number of the first `n` elements that pass the test. -/
def score (test : PMatch K → Bool) (n : Nat) (l : List (PMatch K)) : Nat := ((l.take n).filter test).length

theorem marked_clear {test : PMatch K → Bool} (hb : Blind test) (l : List (PMatch K)) :
    marked test (l.map PMatch.clear) = marked test l := by
  rw [marked, marked, List.map_map]
  apply List.map_congr_left
  intro c _
  simp only [Function.comp_apply, hb c]
  rfl

theorem filter_clear_length {test : PMatch K → Bool} (hb : Blind test) (l : List (PMatch K)) :
    ((l.map PMatch.clear).filter test).length = (l.filter test).length := by
  rw [← List.countP_eq_length_filter, ← List.countP_eq_length_filter, List.countP_map]
  congr 1
  funext c
  exact hb c

theorem unmark_eq {n : Nat} {a b : List (PMatch K)} (ha : n ≤ a.length) (hb : n ≤ b.length)
    (h : unmark n a = unmark n b) : (a.take n).map PMatch.clear = (b.take n).map PMatch.clear ∧ a.drop n = b.drop n := by
  refine List.append_inj h ?_
  rw [List.length_map, List.length_map, List.length_take, List.length_take]
  omega

theorem unmark_length (n : Nat) (l : List (PMatch K)) : (unmark n l).length = l.length := by
  rw [unmark, List.length_append, List.length_map, List.length_take, List.length_drop]
  omega

/-- Marking does not depend on the marks. -/
theorem mark_of_unmark {test : PMatch K → Bool} (hb : Blind test) {n : Nat} {corr c0 : List (PMatch K)}
    (h0 : n ≤ c0.length) (h : unmark n corr = unmark n c0) :
    markLoop test n corr 0 = .ok (markAll test n c0, score test n c0) := by
  have hl : n ≤ corr.length := by
    have := congrArg List.length h
    rw [unmark_length, unmark_length] at this
    omega
  obtain ⟨h1, h2⟩ := unmark_eq hl h0 h
  rw [markLoop_ok _ _ _ _ hl, Nat.zero_add, markAll, score, ← marked_clear hb, h1, marked_clear hb, h2,
    ← filter_clear_length hb, h1, filter_clear_length hb]

theorem marked_map_clear (test : PMatch K → Bool) (l : List (PMatch K)) :
    (marked test l).map PMatch.clear = l.map PMatch.clear := by
  rw [marked, List.map_map]
  rfl

theorem unmark_markAll {test : PMatch K → Bool} {n : Nat} {c0 : List (PMatch K)} (h0 : n ≤ c0.length) :
    unmark n (markAll test n c0) = unmark n c0 := by
  have hl : (marked test (c0.take n)).length = n := by
    rw [marked, List.length_map, List.length_take]
    omega
  rw [unmark, markAll, List.take_left' hl, List.drop_left' hl, marked_map_clear]
  rfl

theorem score_le (test : PMatch K → Bool) (n : Nat) (l : List (PMatch K)) : score test n l ≤ n := by
  rw [score]
  refine le_trans (List.length_filter_le _ _) ?_
  rw [List.length_take]
  omega

theorem score_perm {test : PMatch K → Bool} {n : Nat} {a b : List (PMatch K)} (h : (a.take n).Perm (b.take n)) :
    score test n a = score test n b := (h.filter test).length_eq

/-- What the main loop keeps. -/
structure RInv (test : M3 K → PMatch K → Bool) (n : Nat) (c0 : List (PMatch K)) (s : RState K) : Prop where
  same : unmark n s.corr = unmark n c0
  le : ∀ h ∈ s.hyps, score (test h) n c0 ≤ s.nBest
  none : s.best = none → s.nBest = 0
  some : ∀ hb, s.best = some hb → hb ∈ s.hyps ∧ score (test hb) n c0 = s.nBest ∧ 0 < s.nBest
  top : s.nTop ≤ n ∧ (0 < n → 0 < s.nTop)

theorem RInv.update {test : M3 K → PMatch K → Bool} {n : Nat} {c0 : List (PMatch K)} {s : RState K}
    (h0 : n ≤ c0.length) (hs : RInv test n c0 s) (h : M3 K) (rnd : List (BitVec 32)) :
    RInv test n c0 (s.update n h rnd (markAll (test h) n c0, score (test h) n c0)) := by
  refine ⟨unmark_markAll h0, ?_, ?_, ?_, ?_⟩
  · intro g hg
    simp only [RState.update, List.mem_append, List.mem_singleton] at hg ⊢
    rcases hg with hg | rfl
    · have := hs.le g hg
      split <;> omega
    · split <;> omega
  · simp only [RState.update]
    split
    · intro h; cases h
    · exact hs.none
  · intro hb
    simp only [RState.update]
    split
    · intro e
      cases e
      exact ⟨by simp, rfl, by omega⟩
    · intro e
      obtain ⟨h1, h2, h3⟩ := hs.some hb e
      exact ⟨by simp [h1], h2, h3⟩
  · simp only [RState.update]
    have := hs.top
    split <;> omega

/-- The random numbers of a proposal are among those given. -/
def SubRnd (propose : Nat → M3 K → List (PMatch K) → List (BitVec 32) → Res (Proposal K)) : Prop :=
  ∀ t h c r h' r', propose t h c r = .ok (.done (h', r')) → ∀ v ∈ r', v ∈ r

/-- A hypothesis is the result of a proposal from matches that differ from `c0` in the marks only. -/
def Proposed (propose : Nat → M3 K → List (PMatch K) → List (BitVec 32) → Res (Proposal K)) (n : Nat)
    (c0 : List (PMatch K)) (rnd : List (BitVec 32)) (h : M3 K) : Prop :=
  ∃ t h0 c r r', propose t h0 c r = .ok (.done (h, r')) ∧ t ≤ n ∧ (0 < n → 0 < t) ∧ unmark n c = unmark n c0 ∧
    ∀ v ∈ r, v ∈ rnd

theorem ransacLoop_spec {propose : Nat → M3 K → List (PMatch K) → List (BitVec 32) → Res (Proposal K)}
    (hsub : SubRnd propose) {test : M3 K → PMatch K → Bool} (hb : ∀ h, Blind (test h)) {limit n : Nat}
    {c0 : List (PMatch K)} (h0 : n ≤ c0.length) (rnd : List (BitVec 32)) (k : Nat) (s s' : RState K) (hs : RInv test n c0 s)
    (hr : ∀ v ∈ s.rnd, v ∈ rnd)
    (he : ransacLoop limit n propose (fun h corr => markLoop (test h) n corr 0) k s = .ok (.done s')) :
    RInv test n c0 s' ∧ s.hyps.length ≤ s'.hyps.length ∧ s'.hyps.length ≤ s.hyps.length + k ∧
      (s'.hyps.length = s.hyps.length + k ∨ limit ≤ s'.nIn) ∧
      (∀ h ∈ s'.hyps, h ∈ s.hyps ∨ Proposed propose n c0 rnd h) ∧ ∀ h ∈ s.hyps, h ∈ s'.hyps := by
  induction k generalizing s with
  | zero =>
    rw [ransacLoop] at he
    cases he
    exact ⟨hs, le_refl _, le_refl _, .inl rfl, fun h hh => .inl hh, fun h hh => hh⟩
  | succ k ih =>
    rw [ransacLoop] at he
    by_cases hc : s.nIn < limit
    · rw [if_pos hc] at he
      cases hp : propose s.nTop s.h s.corr s.rnd with
      | fatal => rw [hp] at he; cases he
      | ub => rw [hp] at he; cases he
      | ok p =>
        rw [hp] at he
        cases p with
        | starved => cases he
        | nan => cases he
        | done p =>
          simp only [Res.bind] at he
          rw [mark_of_unmark (hb p.1) h0 hs.same] at he
          obtain ⟨i1, i2, i3, i4, i5, i6⟩ := ih _ (hs.update h0 p.1 p.2)
            (fun v hv => hr v (hsub _ _ _ _ _ _ hp v hv)) he
          have hl : (s.update n p.1 p.2 (markAll (test p.1) n c0, score (test p.1) n c0)).hyps.length = s.hyps.length + 1 := by
            simp [RState.update]
          rw [hl] at i2 i3 i4
          refine ⟨i1, by omega, by omega, by omega, ?_, fun h hh => i6 h (by simp [RState.update, hh])⟩
          intro h hh
          rcases i5 h hh with h' | h'
          · simp only [RState.update, List.mem_append, List.mem_singleton] at h'
            rcases h' with h' | rfl
            · exact .inl h'
            · exact .inr ⟨_, _, _, _, _, hp, hs.top.1, hs.top.2, hs.same, hr⟩
          · exact .inr h'
    · rw [if_neg hc] at he
      cases he
      exact ⟨hs, le_refl _, by omega, .inr (by omega), fun h hh => .inl hh, fun h hh => hh⟩

/-- The loop is safe if the proposals are. -/
theorem ransacLoop_safe {propose : Nat → M3 K → List (PMatch K) → List (BitVec 32) → Res (Proposal K)}
    (hsub : SubRnd propose) {test : M3 K → PMatch K → Bool} (hb : ∀ h, Blind (test h)) {limit n : Nat} {c0 : List (PMatch K)}
    (h0 : n ≤ c0.length) {Q : BitVec 32 → Prop}
    (hp : ∀ t h c r, t ≤ n → (0 < n → 0 < t) → unmark n c = unmark n c0 → (∀ v ∈ r, Q v) → ∃ p, propose t h c r = .ok p)
    (k : Nat) (s : RState K) (hs : RInv test n c0 s) (hr : ∀ v ∈ s.rnd, Q v) :
    ∃ r, ransacLoop limit n propose (fun h corr => markLoop (test h) n corr 0) k s = .ok r := by
  induction k generalizing s with
  | zero => exact ⟨_, by rw [ransacLoop]⟩
  | succ k ih =>
    rw [ransacLoop]
    by_cases hc : s.nIn < limit
    · rw [if_pos hc]
      obtain ⟨p, hpp⟩ := hp s.nTop s.h s.corr s.rnd hs.top.1 hs.top.2 hs.same hr
      rw [hpp]
      cases p with
      | starved => exact ⟨_, rfl⟩
      | nan => exact ⟨_, rfl⟩
      | done p =>
        simp only [Res.bind]
        rw [mark_of_unmark (hb p.1) h0 hs.same]
        exact ih _ (hs.update h0 p.1 p.2) (fun v hv => hr v (hsub _ _ _ _ _ _ hpp v hv))
    · rw [if_neg hc]
      exact ⟨_, rfl⟩

/-- The refinement loop ends, and its result is described by its last iteration. -/
theorem refineLoop_spec {test : M3 K → PMatch K → Bool} (hb : ∀ h, Blind (test h)) {n : Nat} {c0 : List (PMatch K)}
    (h0 : n ≤ c0.length) {refit : M3 K → List (PMatch K) → Res (M3 K)}
    (hf : ∀ h, ∃ h', refit h (markAll (test h) n c0) = .ok h') (f : Nat) (h : M3 K) (nIn : Nat) (hn : nIn ≤ n)
    (hfuel : n + 2 ≤ f + nIn) :
    ∃ h', refineLoop (fun h corr => markLoop (test h) n corr 0) refit f h (markAll (test h) n c0) (score (test h) n c0) nIn
        = .ok (some (h', markAll (test h') n c0, score (test h') n c0)) ∧
      ((h' = h ∧ score (test h) n c0 ≤ nIn + 5) ∨
        ∃ h1, score (test h) n c0 ≤ score (test h1) n c0 ∧ nIn + 6 ≤ score (test h1) n c0 ∧
          refit h1 (markAll (test h1) n c0) = .ok h' ∧ score (test h') n c0 ≤ score (test h1) n c0 + 5) := by
  induction f generalizing h nIn with
  | zero => omega
  | succ f ih =>
    rw [refineLoop]
    by_cases hc : score (test h) n c0 > nIn + 5
    · rw [if_pos hc]
      obtain ⟨g, hg⟩ := hf h
      rw [hg]
      simp only [Res.ok_bind]
      rw [mark_of_unmark (hb g) h0 (unmark_markAll h0)]
      simp only [Res.ok_bind]
      obtain ⟨h', e, hh⟩ := ih g (score (test h) n c0) (score_le _ _ _) (by omega)
      refine ⟨h', e, .inr ?_⟩
      rcases hh with ⟨rfl, hle⟩ | ⟨h1, a, b, c, d⟩
      · exact ⟨h, le_refl _, by omega, hg, hle⟩
      · exact ⟨h1, by omega, by omega, c, d⟩
    · rw [if_neg hc]
      exact ⟨h, rfl, .inl ⟨rfl, by omega⟩⟩

/-- What is known of a finished run of the common part. -/
structure RSpec (propose : Nat → M3 K → List (PMatch K) → List (BitVec 32) → Res (Proposal K))
    (test : M3 K → PMatch K → Bool) (refit : M3 K → List (PMatch K) → Res (M3 K)) (limit n : Nat) (maxIter : Nat)
    (c0 : List (PMatch K)) (rnd : List (BitVec 32)) (o : ROut K) : Prop where
  corr : o.corr = markAll (test o.h) n c0
  count : o.count = score (test o.h) n c0
  hyps : ∀ h ∈ o.hyps, Proposed propose n c0 rnd h
  iter : o.hyps.length ≤ maxIter
  best : ∃ hb ∈ o.hyps, 0 < score (test hb) n c0 ∧ (∀ h ∈ o.hyps, score (test h) n c0 ≤ score (test hb) n c0) ∧
    ((o.h = hb ∧ score (test hb) n c0 ≤ 6) ∨
      ∃ h1, score (test hb) n c0 ≤ score (test h1) n c0 ∧ 7 ≤ score (test h1) n c0 ∧
        refit h1 (markAll (test h1) n c0) = .ok o.h ∧ score (test o.h) n c0 ≤ score (test h1) n c0 + 5)

theorem ransacFinish_spec {test : M3 K → PMatch K → Bool} (hb : ∀ h, Blind (test h)) {n : Nat} {c0 : List (PMatch K)}
    (h0 : n ≤ c0.length) (hn : 0 < n) {refit : M3 K → List (PMatch K) → Res (M3 K)}
    (hf : ∀ h, ∃ h', refit h (markAll (test h) n c0) = .ok h') (s : RState K) (hs : RInv test n c0 s) :
    (s.best = none → ransacFinish (fun h corr => markLoop (test h) n corr 0) refit n s = .ub) ∧
    ∀ h1, s.best = some h1 → ∃ o, ransacFinish (fun h corr => markLoop (test h) n corr 0) refit n s = .ok (.done o) ∧
      o.corr = markAll (test o.h) n c0 ∧ o.count = score (test o.h) n c0 ∧ o.hyps = s.hyps ∧
      ((o.h = h1 ∧ score (test h1) n c0 ≤ 6) ∨
        ∃ h2, score (test h1) n c0 ≤ score (test h2) n c0 ∧ 7 ≤ score (test h2) n c0 ∧
          refit h2 (markAll (test h2) n c0) = .ok o.h ∧ score (test o.h) n c0 ≤ score (test h2) n c0 + 5) := by
  constructor
  · intro h
    rw [ransacFinish, h]
  · intro h1 h
    obtain ⟨h', e, hh⟩ := refineLoop_spec hb h0 hf (n + 1) h1 1 hn (by omega)
    refine ⟨⟨h', markAll (test h') n c0, score (test h') n c0, s.hyps⟩, ?_, rfl, rfl, rfl, hh⟩
    rw [ransacFinish, h]
    simp only
    rw [mark_of_unmark (hb h1) h0 hs.same]
    simp only [Res.ok_bind]
    rw [e]
    rfl

theorem rinv_start (test : M3 K → PMatch K → Bool) (n : Nat) (c0 : List (PMatch K)) (h : M3 K) (rnd : List (BitVec 32)) :
    RInv test n c0 ⟨h, none, 0, 0, c0, if 10 > n then n else 10, rnd, []⟩ := by
  refine ⟨rfl, by simp, fun _ => rfl, (fun _ h => nomatch h), ?_⟩
  simp only
  split <;> omega

/-- The matches after sorting. -/
def sorted0 (qsort : List (PMatch K) → List (PMatch K)) (n : Nat) (corr : List (PMatch K)) : List (PMatch K) :=
  qsort (corr.take n) ++ corr.drop n

theorem sorted0_length {qsort : List (PMatch K) → List (PMatch K)} (hq : ∀ l, (qsort l).Perm l) (n : Nat)
    (corr : List (PMatch K)) : (sorted0 qsort n corr).length = corr.length := by
  rw [sorted0, List.length_append, (hq _).length_eq, ← List.length_append, List.take_append_drop]

theorem sorted0_take {qsort : List (PMatch K) → List (PMatch K)} (hq : ∀ l, (qsort l).Perm l) {n : Nat}
    {corr : List (PMatch K)} (hn : n ≤ corr.length) : (sorted0 qsort n corr).take n = qsort (corr.take n) := by
  rw [sorted0, List.take_left']
  rw [(hq _).length_eq, List.length_take]
  omega

theorem sorted0_drop {qsort : List (PMatch K) → List (PMatch K)} (hq : ∀ l, (qsort l).Perm l) {n : Nat}
    {corr : List (PMatch K)} (hn : n ≤ corr.length) : (sorted0 qsort n corr).drop n = corr.drop n := by
  rw [sorted0, List.drop_left']
  rw [(hq _).length_eq, List.length_take]
  omega

theorem ransacCore_spec {propose : Nat → M3 K → List (PMatch K) → List (BitVec 32) → Res (Proposal K)}
    (hsub : SubRnd propose) {test : M3 K → PMatch K → Bool} (hb : ∀ h, Blind (test h)) {limit n : Nat} {maxIter : Int}
    {qsort : List (PMatch K) → List (PMatch K)} (hq : ∀ l, (qsort l).Perm l) {corr : List (PMatch K)}
    (h0 : n ≤ corr.length) (hn : 0 < n) {refit : M3 K → List (PMatch K) → Res (M3 K)}
    (hf : ∀ h, ∃ h', refit h (markAll (test h) n (sorted0 qsort n corr)) = .ok h') (h : M3 K) (rnd : List (BitVec 32)) (o : ROut K)
    (he : ransacCore limit n maxIter qsort propose (fun h corr => markLoop (test h) n corr 0) refit h corr rnd
      = .ok (.done o)) :
    RSpec propose test refit limit n maxIter.toNat (sorted0 qsort n corr) rnd o := by
  have hl : n ≤ (sorted0 qsort n corr).length := by rw [sorted0_length hq]; exact h0
  rw [ransacCore, sortFirst, if_pos h0] at he
  simp only [Res.bind] at he
  rw [← sorted0] at he
  cases hp : ransacLoop limit n propose (fun h corr => markLoop (test h) n corr 0) maxIter.toNat
      ⟨h, none, 0, 0, sorted0 qsort n corr, if 10 > n then n else 10, rnd, []⟩ with
  | fatal => rw [hp] at he; cases he
  | ub => rw [hp] at he; cases he
  | ok p =>
    rw [hp] at he
    cases p with
    | starved => cases he
    | nan => cases he
    | done s =>
      simp only at he
      obtain ⟨i1, i2, i3, i4, i5, -⟩ := ransacLoop_spec hsub hb hl rnd _ _ _ (rinv_start _ _ _ _ _) (fun v hv => hv) hp
      obtain ⟨f1, f2⟩ := ransacFinish_spec hb hl hn hf s i1
      cases hbest : s.best with
      | none => rw [f1 hbest] at he; cases he
      | some hb' =>
        obtain ⟨o', e, a1, a2, a3, a4⟩ := f2 hb' hbest
        rw [e] at he
        cases he
        obtain ⟨b1, b2, b3⟩ := i1.some hb' hbest
        refine ⟨a1, a2, ?_, ?_, hb', by rw [a3]; exact b1, by omega, ?_, a4⟩
        · intro g hg
          rw [a3] at hg
          rcases i5 g hg with h' | h'
          · simp at h'
          · exact h'
        · rw [a3]
          simpa using i3
        · intro g hg
          rw [a3] at hg
          rw [b2]
          exact i1.le g hg

/-- If a run finishes, the first proposal is one of the hypotheses. -/
theorem ransacCore_first {propose : Nat → M3 K → List (PMatch K) → List (BitVec 32) → Res (Proposal K)}
    (hsub : SubRnd propose) {test : M3 K → PMatch K → Bool} (hb : ∀ h, Blind (test h)) {limit n : Nat} {maxIter : Int}
    {qsort : List (PMatch K) → List (PMatch K)} (hq : ∀ l, (qsort l).Perm l) {corr : List (PMatch K)}
    (h0 : n ≤ corr.length) (hn : 0 < n) {refit : M3 K → List (PMatch K) → Res (M3 K)}
    (hf : ∀ h, ∃ h', refit h (markAll (test h) n (sorted0 qsort n corr)) = .ok h') (h : M3 K) (rnd : List (BitVec 32)) (o : ROut K)
    (he : ransacCore limit n maxIter qsort propose (fun h corr => markLoop (test h) n corr 0) refit h corr rnd
      = .ok (.done o)) (hi : 1 ≤ maxIter) (hli : 0 < limit) (g : M3 K) (rnd' : List (BitVec 32))
    (hg : propose (if 10 > n then n else 10) h (sorted0 qsort n corr) rnd = .ok (.done (g, rnd'))) : g ∈ o.hyps := by
  have hl : n ≤ (sorted0 qsort n corr).length := by rw [sorted0_length hq]; exact h0
  rw [ransacCore, sortFirst, if_pos h0] at he
  simp only [Res.bind] at he
  rw [← sorted0] at he
  obtain ⟨k, hk⟩ : ∃ k, maxIter.toNat = k + 1 := ⟨maxIter.toNat - 1, by omega⟩
  cases hp : ransacLoop limit n propose (fun h corr => markLoop (test h) n corr 0) maxIter.toNat
      ⟨h, none, 0, 0, sorted0 qsort n corr, if 10 > n then n else 10, rnd, []⟩ with
  | fatal => rw [hp] at he; cases he
  | ub => rw [hp] at he; cases he
  | ok p =>
    rw [hp] at he
    cases p with
    | starved => cases he
    | nan => cases he
    | done s =>
      simp only at he
      obtain ⟨i1, -⟩ := ransacLoop_spec hsub hb hl rnd _ _ _ (rinv_start _ _ _ _ _) (fun v hv => hv) hp
      obtain ⟨f1, f2⟩ := ransacFinish_spec hb hl hn hf s i1
      have hmem : g ∈ s.hyps := by
        rw [hk, ransacLoop, if_pos hli, hg] at hp
        simp only [Res.bind] at hp
        rw [mark_of_unmark (hb g) hl rfl] at hp
        obtain ⟨-, -, -, -, -, i6⟩ := ransacLoop_spec hsub hb hl rnd _ _ _
          ((rinv_start test n (sorted0 qsort n corr) h rnd).update hl g rnd') (fun v hv => hsub _ _ _ _ _ _ hg v hv) hp
        exact i6 g (by simp [RState.update])
      cases hbest : s.best with
      | none => rw [f1 hbest] at he; cases he
      | some hb' =>
        obtain ⟨o', e, a1, a2, a3, a4⟩ := f2 hb' hbest
        rw [e] at he
        cases he
        rw [a3]
        exact hmem

/-- If the proposals are safe, the only undefined behaviour is that no hypothesis has an inlier. -/
theorem ransacCore_safe {propose : Nat → M3 K → List (PMatch K) → List (BitVec 32) → Res (Proposal K)}
    (hsub : SubRnd propose) {test : M3 K → PMatch K → Bool} (hb : ∀ h, Blind (test h)) {limit n : Nat} {maxIter : Int}
    {qsort : List (PMatch K) → List (PMatch K)} (hq : ∀ l, (qsort l).Perm l) {corr : List (PMatch K)}
    (h0 : n ≤ corr.length) (hn : 0 < n) {refit : M3 K → List (PMatch K) → Res (M3 K)}
    (hf : ∀ h, ∃ h', refit h (markAll (test h) n (sorted0 qsort n corr)) = .ok h') {Q : BitVec 32 → Prop}
    (hp : ∀ t h c r, t ≤ n → (0 < n → 0 < t) → unmark n c = unmark n (sorted0 qsort n corr) → (∀ v ∈ r, Q v) →
      ∃ p, propose t h c r = .ok p)
    (h : M3 K) (rnd : List (BitVec 32)) (hr : ∀ v ∈ rnd, Q v) :
    (∃ r, ransacCore limit n maxIter qsort propose (fun h corr => markLoop (test h) n corr 0) refit h corr rnd = .ok r) ∨
    (ransacCore limit n maxIter qsort propose (fun h corr => markLoop (test h) n corr 0) refit h corr rnd = .ub ∧
      ∃ s, ransacLoop limit n propose (fun h corr => markLoop (test h) n corr 0) maxIter.toNat
        ⟨h, none, 0, 0, sorted0 qsort n corr, if 10 > n then n else 10, rnd, []⟩ = .ok (.done s) ∧
        ∀ g ∈ s.hyps, score (test g) n (sorted0 qsort n corr) = 0) := by
  have hl : n ≤ (sorted0 qsort n corr).length := by rw [sorted0_length hq]; exact h0
  obtain ⟨r, e⟩ := ransacLoop_safe hsub hb (limit := limit) hl hp maxIter.toNat
    ⟨h, none, 0, 0, sorted0 qsort n corr, if 10 > n then n else 10, rnd, []⟩ (rinv_start _ _ _ _ _) hr
  rw [ransacCore, sortFirst, if_pos h0]
  simp only [Res.bind]
  rw [← sorted0, e]
  cases r with
  | starved => exact .inl ⟨_, rfl⟩
  | nan => exact .inl ⟨_, rfl⟩
  | done s =>
    simp only
    obtain ⟨i1, -⟩ := ransacLoop_spec hsub hb hl rnd _ _ _ (rinv_start _ _ _ _ _) (fun v hv => hv) e
    obtain ⟨f1, f2⟩ := ransacFinish_spec hb hl hn hf s i1
    cases hbest : s.best with
    | none =>
      refine .inr ⟨f1 hbest, s, rfl, fun g hg => ?_⟩
      have := i1.le g hg
      rw [i1.none hbest] at this
      omega
    | some hb' =>
      obtain ⟨o', e', -⟩ := f2 hb' hbest
      exact .inl ⟨_, e'⟩

/-- If some hypothesis has all matches as inliers, and refitting to all matches gives a transformation with
a property that again has all matches as inliers, then the result has the property. -/
theorem rspec_recover {propose : Nat → M3 K → List (PMatch K) → List (BitVec 32) → Res (Proposal K)}
    {test : M3 K → PMatch K → Bool} {refit : M3 K → List (PMatch K) → Res (M3 K)} {limit n maxIter : Nat}
    {c0 : List (PMatch K)} {rnd : List (BitVec 32)} {o : ROut K}
    (ho : RSpec propose test refit limit n maxIter c0 rnd o) (h7 : 7 ≤ n) {Good : M3 K → Prop}
    (hall : ∃ h ∈ o.hyps, score (test h) n c0 = n)
    (hgood : ∀ h h', score (test h) n c0 = n → refit h (markAll (test h) n c0) = .ok h' → Good h' ∧ score (test h') n c0 = n) :
    Good o.h ∧ o.count = n := by
  obtain ⟨hb, hmem, hpos, hmax, hres⟩ := ho.best
  obtain ⟨h, hh, hn⟩ := hall
  have hbn : score (test hb) n c0 = n := le_antisymm (score_le _ _ _) (le_trans (le_of_eq hn.symm) (hmax h hh))
  rcases hres with ⟨-, h6⟩ | ⟨h1, a, b, c, d⟩
  · omega
  · have h1n : score (test h1) n c0 = n := le_antisymm (score_le _ _ _) (le_trans (le_of_eq hbn.symm) a)
    obtain ⟨g1, g2⟩ := hgood h1 o.h h1n c
    exact ⟨g1, by rw [ho.count, g2]⟩

theorem score_nWith {test : PMatch K → Bool} {P : PMatch K → Prop} (hP : ∀ c, test c = true ↔ P c)
    {qsort : List (PMatch K) → List (PMatch K)} (hq : ∀ l, (qsort l).Perm l) {n : Nat} {corr : List (PMatch K)}
    (h0 : n ≤ corr.length) : score test n (sorted0 qsort n corr) = nWith P n corr := by
  rw [score, sorted0_take hq h0, nWith, ← List.countP_eq_length_filter, (hq _).countP_eq]
  apply List.countP_congr
  intro c _
  simp only [decide_eq_true_eq]
  exact hP c

theorem markAll_take {test : PMatch K → Bool} {n : Nat} {c0 : List (PMatch K)} (h0 : n ≤ c0.length) :
    (markAll test n c0).take n = marked test (c0.take n) := by
  rw [markAll, List.take_left']
  rw [marked, List.length_map, List.length_take]
  omega

theorem markAll_drop {test : PMatch K → Bool} {n : Nat} {c0 : List (PMatch K)} (h0 : n ≤ c0.length) :
    (markAll test n c0).drop n = c0.drop n := by
  rw [markAll, List.drop_left']
  rw [marked, List.length_map, List.length_take]
  omega

theorem markAll_markedBy {test : PMatch K → Bool} (hb : Blind test) {P : PMatch K → Prop} (hP : ∀ c, test c = true ↔ P c)
    {qsort : List (PMatch K) → List (PMatch K)} (hq : ∀ l, (qsort l).Perm l) {n : Nat} {corr : List (PMatch K)}
    (h0 : n ≤ corr.length) : MarkedBy P n corr (markAll test n (sorted0 qsort n corr)) := by
  have hl : n ≤ (sorted0 qsort n corr).length := by rw [sorted0_length hq]; exact h0
  refine ⟨?_, ?_, ?_⟩
  · rw [markAll_take hl, marked_map_clear, sorted0_take hq h0]
    exact (hq _).map _
  · rw [markAll_drop hl, sorted0_drop hq h0]
  · intro c hc
    rw [markAll_take hl, marked, List.mem_map] at hc
    obtain ⟨d, -, rfl⟩ := hc
    rw [← hP]
    have h1 := hb d
    have h2 := hb { d with inlier := test d }
    rw [← h2]
    show test d = true ↔ test d.clear = true
    rw [h1]

theorem nMarked_markAll {test : PMatch K → Bool} {n : Nat} {c0 : List (PMatch K)} (h0 : n ≤ c0.length) :
    nMarked n (markAll test n c0) = score test n c0 := by
  rw [nMarked, markAll_take h0, score, marked, List.countP_map, ← List.countP_eq_length_filter]
  rfl

/-- The first `n` matches of a marked list that have all the property. -/
theorem filter_markAll {test : PMatch K → Bool} {n : Nat} {c0 : List (PMatch K)} (h0 : n ≤ c0.length)
    (hs : score test n c0 = n) :
    ((markAll test n c0).take n).filter (fun c => c.inlier) = (c0.take n).map fun c => { c with inlier := true } := by
  have hall : ∀ c ∈ c0.take n, test c = true := by
    rw [score] at hs
    have hl : (c0.take n).length = n := by rw [List.length_take]; omega
    have := List.length_filter_eq_length_iff.mp (hs.trans hl.symm)
    exact this
  rw [markAll_take h0, marked]
  have e : (c0.take n).map (fun c => { c with inlier := test c }) = (c0.take n).map fun c => { c with inlier := true } := by
    apply List.map_congr_left
    intro c hc
    rw [hall c hc]
  rw [e, List.filter_eq_self]
  intro c hc
  rw [List.mem_map] at hc
  obtain ⟨d, -, rfl⟩ := hc
  rfl

/-- What is known of a finished run, in terms of the given matches. -/
structure ROutcome (P : M3 K → PMatch K → Prop) (refit : M3 K → List (PMatch K) → Res (M3 K)) (n maxIter : Nat)
    (corr : List (PMatch K)) (o : ROut K) : Prop where
  marks : MarkedBy (P o.h) n corr o.corr
  count : o.count = nMarked n o.corr
  same : nMarked n o.corr = nWith (P o.h) n corr
  iter : o.hyps.length ≤ maxIter
  best : ∃ hb ∈ o.hyps, 0 < nWith (P hb) n corr ∧ (∀ h ∈ o.hyps, nWith (P h) n corr ≤ nWith (P hb) n corr) ∧
    ((o.h = hb ∧ nWith (P hb) n corr ≤ 6) ∨
      ∃ h1 corr1, nWith (P hb) n corr ≤ nWith (P h1) n corr ∧ 7 ≤ nWith (P h1) n corr ∧ MarkedBy (P h1) n corr corr1 ∧
        nMarked n corr1 = nWith (P h1) n corr ∧ corr1.length = corr.length ∧
        refit h1 corr1 = .ok o.h ∧ nWith (P o.h) n corr ≤ nWith (P h1) n corr + 5)

theorem rspec_outcome {propose : Nat → M3 K → List (PMatch K) → List (BitVec 32) → Res (Proposal K)}
    {test : M3 K → PMatch K → Bool} (hb : ∀ h, Blind (test h)) {P : M3 K → PMatch K → Prop}
    (hP : ∀ h c, test h c = true ↔ P h c) {refit : M3 K → List (PMatch K) → Res (M3 K)} {limit n maxIter : Nat}
    {qsort : List (PMatch K) → List (PMatch K)} (hq : ∀ l, (qsort l).Perm l) {corr : List (PMatch K)}
    (h0 : n ≤ corr.length) {rnd : List (BitVec 32)} {o : ROut K}
    (ho : RSpec propose test refit limit n maxIter (sorted0 qsort n corr) rnd o) : ROutcome P refit n maxIter corr o := by
  have hl : n ≤ (sorted0 qsort n corr).length := by rw [sorted0_length hq]; exact h0
  have hs : ∀ h, score (test h) n (sorted0 qsort n corr) = nWith (P h) n corr := fun h => score_nWith (hP h) hq h0
  obtain ⟨g, g1, g2, g3, g4⟩ := ho.best
  refine ⟨?_, ?_, ?_, ho.iter, g, g1, ?_, ?_, ?_⟩
  · rw [ho.corr]
    exact markAll_markedBy (hb _) (hP _) hq h0
  · rw [ho.count, ho.corr, nMarked_markAll hl]
  · rw [ho.corr, nMarked_markAll hl, hs]
  · rw [← hs]; exact g2
  · intro h hh
    rw [← hs, ← hs]
    exact g3 h hh
  · rcases g4 with ⟨a, b⟩ | ⟨h1, a, b, c, d⟩
    · exact .inl ⟨a, by rw [← hs]; exact b⟩
    · simp only [hs] at a b d
      refine .inr ⟨h1, _, a, b, markAll_markedBy (hb h1) (hP h1) hq h0, by rw [nMarked_markAll hl, hs], ?_, c, d⟩
      have := congrArg List.length (unmark_markAll (test := test h1) hl)
      rw [unmark_length, unmark_length, sorted0_length hq] at this
      exact this

end

end Nx
