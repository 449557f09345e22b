import Verif.Model.Usac

/-! # C40: the robust estimator returns its best hypothesis -/

namespace Nx

variable {σ M S R : Type}

/-- What holds of the best score at any time: no call of the score function for a
model that was not rejected returned more, and it is the score returned for the best
model (or the start value, while nothing exceeded that); the values assigned to
`best_score` increase. -/
structure UsacInv (gt : R → R → Bool) (zero : M) (worst : R) (s : UsacState σ M R) : Prop where
  max : ∀ e ∈ s.calls, e.rejected = false → gt e.score s.bestScore = false
  own : (∃ e ∈ s.calls, e.rejected = false ∧ e.model = s.best ∧ e.score = s.bestScore) ∨
    (s.best = zero ∧ s.bestScore = worst)
  incr : (worst :: s.bests).Pairwise (fun a b => gt b a = true)
  last : (worst :: s.bests).getLast? = some s.bestScore
  checked : ∀ e ∈ s.calls, e.checked = true

variable {gt : R → R → Bool} {zero : M} {worst : R}

theorem UsacInv.of_data {s : UsacState σ M R} (h : UsacInv gt zero worst s) (d : σ) :
    UsacInv gt zero worst { s with data := d } := ⟨h.max, h.own, h.incr, h.last, h.checked⟩

theorem UsacInv.of_called {s : UsacState σ M R} (h : UsacInv gt zero worst s) (m : M) (r : R) (rej ch : Bool) (d : σ)
    (hr : rej = false → gt r s.bestScore = false) (hch : ch = true) :
    UsacInv gt zero worst (s.called m r rej ch d) := by
  refine ⟨?_, ?_, h.incr, h.last, ?_⟩
  · intro e he hrej
    simp only [UsacState.called, List.mem_append, List.mem_singleton] at he
    rcases he with he | rfl
    · exact h.max e he hrej
    · exact hr hrej
  · rcases h.own with ⟨e, he, h1⟩ | h1
    · exact Or.inl ⟨e, by simp [UsacState.called, he], h1⟩
    · exact Or.inr h1
  · intro e he
    simp only [UsacState.called, List.mem_append, List.mem_singleton] at he
    rcases he with he | rfl
    · exact h.checked e he
    · exact hch

/-- Assigning a better score, given calls that do not exceed it. -/
theorem UsacInv.of_update {s t : UsacState σ M R} (h : UsacInv gt zero worst s)
    (htr : ∀ a b c, gt a b = true → gt b c = true → gt a c = true)
    {m : M} {r : R} {ch : Bool} (hr : gt r s.bestScore = true)
    (hb : t.bests = s.bests)
    (hold : ∀ e ∈ t.calls, e.rejected = false → gt e.score r = false)
    (hmem : ⟨m, r, false, ch⟩ ∈ t.calls) (hch : ∀ e ∈ t.calls, e.checked = true) :
    UsacInv gt zero worst (t.update m r) := by
  refine ⟨hold, Or.inl ⟨_, hmem, rfl, rfl, rfl⟩, ?_, ?_, hch⟩
  · simp only [UsacState.update, hb]
    rw [← List.cons_append, List.pairwise_append]
    refine ⟨h.incr, by simp, ?_⟩
    intro a ha b hb'
    simp only [List.mem_singleton] at hb'
    subst hb'
    have hl := h.last
    obtain ⟨pre, hpre⟩ := List.getLast?_eq_some_iff.mp hl
    rw [hpre] at ha
    rcases List.mem_append.mp ha with ha | ha
    · have hp := h.incr
      rw [hpre, List.pairwise_append] at hp
      exact htr _ _ _ hr (hp.2.2 a ha _ (by simp))
    · simp only [List.mem_singleton] at ha
      rw [ha]; exact hr
  · simp only [UsacState.update]
    rw [← List.cons_append, List.getLast?_append]; rfl

/-- Nothing exceeds a better score that did not exceed the old one. -/
theorem gt_false_of {gt : R → R → Bool} (htr : ∀ a b c, gt a b = true → gt b c = true → gt a c = true)
    {e a b : R} (h : gt e a = false) (hb : gt b a = true) : gt e b = false := by
  cases hc : gt e b with
  | false => rfl
  | true =>
    have := htr e b a hc hb
    rw [h] at this; cases this

theorem usacModel_inv (c : UsacConfig σ M S R) (hirr : ∀ a, c.gt a a = false)
    (htr : ∀ a b d, c.gt a b = true → c.gt b d = true → c.gt a d = true)
    (ids : S) (s : UsacState σ M R) (model : M) (h : UsacInv c.gt zero worst s) :
    UsacInv c.gt zero worst (usacModel c ids s model) := by
  unfold usacModel
  simp only
  split
  · exact h.of_data _
  · rename_i hk
    have hk : (c.modelCheck model ids s.data).1 = true := by simpa using hk
    split
    · rename_i hgt
      have hchk : ∀ (rej : Bool) (d : σ), ∀ e ∈ (s.called model (c.score model ids (c.modelCheck model ids s.data).2).1 rej
          (c.modelCheck model ids s.data).1 d).calls, e.checked = true := by
        intro rej d e he
        simp only [UsacState.called, List.mem_append, List.mem_singleton] at he
        rcases he with he | rfl
        · exact h.checked e he
        · exact hk
      split
      · rename_i hg
        exact h.of_called _ _ _ _ _ (by simp [hg]) hk
      · rename_i hg
        have hg : (c.degeneracyCheck model ids (c.score model ids (c.modelCheck model ids s.data).2).2).1 = true := by
          simpa using hg
        unfold usacImprove
        split
        · rename_i refined d hre
          have hchk2 : ∀ (rej : Bool) (d d' : σ) (r : R), ∀ e ∈ ((s.called model (c.score model ids (c.modelCheck model ids s.data).2).1 rej
              (c.modelCheck model ids s.data).1 d).called refined r false true d').calls, e.checked = true := by
            intro rej d d' r e he
            rw [UsacState.called, List.mem_append, List.mem_singleton] at he
            rcases he with he | rfl
            · exact hchk rej d e he
            · rfl
          simp only
          split
          · rename_i hg2
            refine UsacInv.of_update (ch := true) h htr (htr _ _ _ hg2 hgt) rfl ?_ ?_ (hchk2 _ _ _ _)
            · intro e he hrej
              simp only [UsacState.called, List.append_assoc, List.mem_append, List.mem_singleton] at he
              rcases he with he | rfl | rfl
              · exact gt_false_of htr (gt_false_of htr (h.max e he hrej) hgt) hg2
              · exact gt_false_of htr (hirr _) hg2
              · exact hirr _
            · simp [UsacState.called]
          · rename_i hg2
            refine UsacInv.of_update (ch := true) h htr hgt rfl ?_ ?_ (hchk2 _ _ _ _)
            · intro e he hrej
              simp only [UsacState.called, List.append_assoc, List.mem_append, List.mem_singleton] at he
              rcases he with he | rfl | rfl
              · exact gt_false_of htr (h.max e he hrej) hgt
              · exact hirr _
              · simpa using hg2
            · simp [UsacState.called, hg, hk]
        · refine UsacInv.of_update (ch := true) h htr hgt rfl ?_ ?_ (hchk _ _)
          · intro e he hrej
            simp only [UsacState.called, List.mem_append, List.mem_singleton] at he
            rcases he with he | rfl
            · exact gt_false_of htr (h.max e he hrej) hgt
            · exact hirr _
          · simp [UsacState.called, hg, hk]
    · rename_i hgt
      exact h.of_called _ _ _ _ _ (fun _ => by simpa using hgt) hk

theorem usacFold_inv (c : UsacConfig σ M S R) (hirr : ∀ a, c.gt a a = false)
    (htr : ∀ a b d, c.gt a b = true → c.gt b d = true → c.gt a d = true) (ids : S) :
    ∀ (ms : List M) (s : UsacState σ M R), UsacInv c.gt zero worst s →
      UsacInv c.gt zero worst (ms.foldl (usacModel c ids) s)
  | [], _, h => h
  | m :: ms, s, h => usacFold_inv c hirr htr ids ms _ (usacModel_inv c hirr htr ids s m h)

theorem usacLoop_inv (c : UsacConfig σ M S R) (hirr : ∀ a, c.gt a a = false)
    (htr : ∀ a b d, c.gt a b = true → c.gt b d = true → c.gt a d = true) :
    ∀ (fuel : Nat) (ids : S) (s : UsacState σ M R) (r : S × UsacState σ M R),
      UsacInv c.gt zero worst s → usacLoop c fuel ids s = some r → UsacInv c.gt zero worst r.2 := by
  intro fuel
  induction fuel with
  | zero => intro ids s r _ h; cases h
  | succ fuel ih =>
    intro ids s r hi h
    unfold usacLoop at h
    simp only at h
    split at h
    · cases h; exact hi.of_data _
    · split at h
      · exact ih _ _ _ (hi.of_data _) h
      · exact ih _ _ _ (usacFold_inv c hirr htr _ _ _ (hi.of_data _)) h

/-- C40. Whatever the callbacks do (and how often the loop runs): when the estimator
returns, no score of a hypothesis that was not rejected as degenerate exceeds the
returned score; the returned score is the score of the returned model, unless no
hypothesis scored above the start value, which is then returned with the zero model;
the values of the best score increase during the run; and no hypothesis that failed
the model check is scored. `gt` is any irreflexive
transitive comparison, such as `>` on doubles (including NaN). -/
theorem c40_usac (c : UsacConfig σ M S R) (hirr : ∀ a, c.gt a a = false)
    (htr : ∀ a b d, c.gt a b = true → c.gt b d = true → c.gt a d = true)
    (fuel : Nat) (zero : M) (worst : R) (ids : S) (d : σ) (s : UsacState σ M R)
    (h : usac c fuel zero worst ids d = some s) :
    (∀ e ∈ s.calls, e.rejected = false → c.gt e.score s.bestScore = false) ∧
    ((∃ e ∈ s.calls, e.rejected = false ∧ e.model = s.best ∧ e.score = s.bestScore) ∨
      (s.best = zero ∧ s.bestScore = worst)) ∧
    (worst :: s.bests).Pairwise (fun a b => c.gt b a = true) ∧
    (worst :: s.bests).getLast? = some s.bestScore ∧
    ∀ e ∈ s.calls, e.checked = true := by
  unfold usac at h
  rw [Option.map_eq_some_iff] at h
  obtain ⟨r, h1, h2⟩ := h
  have h0 : UsacInv c.gt zero worst (⟨d, zero, worst, [], []⟩ : UsacState σ M R) :=
    ⟨by simp, Or.inr ⟨rfl, rfl⟩, by simp, rfl, by simp⟩
  have hi := usacLoop_inv c hirr htr fuel ids _ r h0 h1
  have hf : UsacInv c.gt zero worst s := by
    rw [← h2]
    unfold usacFinish
    simp only
    split
    · rename_i hg
      refine UsacInv.of_update (ch := true) hi htr hg rfl ?_ ?_ ?_
      · intro e he hrej
        simp only [UsacState.called, List.mem_append, List.mem_singleton] at he
        rcases he with he | rfl
        · exact gt_false_of htr (hi.max e he hrej) hg
        · exact hirr _
      · simp [UsacState.called]
      · intro e he
        simp only [UsacState.called, List.mem_append, List.mem_singleton] at he
        rcases he with he | rfl
        · exact hi.checked e he
        · rfl
    · rename_i hg
      exact hi.of_called _ _ _ _ _ (fun _ => by simpa using hg) rfl
  exact ⟨hf.max, hf.own, hf.incr, hf.last, hf.checked⟩

/-- With a score function that depends on the model alone, the returned score is the
score of the returned model, and every score seen is a score of the recorded model. -/
theorem c40_calls_are_scores (c : UsacConfig σ M S R) (f : M → R) (hf : ∀ m ids d, (c.score m ids d).1 = f m)
    (fuel : Nat) (zero : M) (worst : R) (ids : S) (d : σ) (s : UsacState σ M R)
    (h : usac c fuel zero worst ids d = some s) : ∀ e ∈ s.calls, e.score = f e.model := by
  have hm : ∀ (ids : S) (s : UsacState σ M R) (m : M), (∀ e ∈ s.calls, e.score = f e.model) →
      ∀ e ∈ (usacModel c ids s m).calls, e.score = f e.model := by
    intro ids s m hs
    unfold usacModel
    simp only
    split
    · exact hs
    · split
      · split
        · intro e he
          simp only [UsacState.called, List.mem_append, List.mem_singleton] at he
          rcases he with he | rfl
          · exact hs e he
          · exact hf _ _ _
        · unfold usacImprove
          split
          · simp only
            split <;>
            · intro e he
              simp only [UsacState.called, UsacState.update, List.append_assoc, List.mem_append, List.mem_singleton] at he
              rcases he with he | rfl | rfl
              · exact hs e he
              · exact hf _ _ _
              · exact hf _ _ _
          · intro e he
            simp only [UsacState.called, UsacState.update, List.mem_append, List.mem_singleton] at he
            rcases he with he | rfl
            · exact hs e he
            · exact hf _ _ _
      · intro e he
        simp only [UsacState.called, List.mem_append, List.mem_singleton] at he
        rcases he with he | rfl
        · exact hs e he
        · exact hf _ _ _
  have hfold : ∀ (ids : S) (ms : List M) (s : UsacState σ M R), (∀ e ∈ s.calls, e.score = f e.model) →
      ∀ e ∈ (ms.foldl (usacModel c ids) s).calls, e.score = f e.model := by
    intro ids ms
    induction ms with
    | nil => intro s hs; exact hs
    | cons m ms ih => intro s hs; exact ih _ (hm ids s m hs)
  have hloop : ∀ (fuel : Nat) (ids : S) (s : UsacState σ M R) (r : S × UsacState σ M R),
      (∀ e ∈ s.calls, e.score = f e.model) → usacLoop c fuel ids s = some r →
      ∀ e ∈ r.2.calls, e.score = f e.model := by
    intro fuel
    induction fuel with
    | zero => intro ids s r _ h; cases h
    | succ fuel ih =>
      intro ids s r hs h
      unfold usacLoop at h
      simp only at h
      split at h
      · cases h; exact hs
      · split at h
        · refine ih _ _ _ ?_ h
          exact hs
        · refine ih _ _ _ (hfold _ _ _ ?_) h
          exact hs
  unfold usac at h
  rw [Option.map_eq_some_iff] at h
  obtain ⟨r, h1, h2⟩ := h
  have hr := hloop fuel ids _ r (by simp) h1
  rw [← h2]
  intro e he
  have he' : e ∈ r.2.calls ∨ e = ⟨(c.globalRefinement r.2.best r.2.data).1,
      (c.score (c.globalRefinement r.2.best r.2.data).1 r.1 (c.globalRefinement r.2.best r.2.data).2).1, false, true⟩ := by
    unfold usacFinish at he
    simp only at he
    split at he <;> simpa [UsacState.called, UsacState.update] using he
  rcases he' with he | rfl
  · exact hr e he
  · exact hf _ _ _

/-- Three samples; the models are numbers scored by themselves, the refinement adds
one to odd models; the models 7 are degenerate. -/
def usacExample : UsacConfig (List (List Int)) Int Nat Int where
  sample ids d := (ids + 1, d)
  sampleCheck _ d := (true, d)
  fit _ d := match d with
    | [] => ([], [])
    | ms :: d => (ms, d)
  modelCheck m _ d := (m ≠ 100, d)
  score m _ d := (m, d)
  degeneracyCheck m _ d := (m ≠ 7, d)
  localRefinement m _ d := (if m % 2 = 1 then some (m + 1) else none, d)
  globalRefinement m d := (m - 5, d)
  terminate _ _ d := (d.isEmpty, d)
  gt a b := a > b

example : (usac usacExample 10 0 (-1000) 0 [[1, 100, 7], [3, 2], [1]]).map (fun s => (s.best, s.bestScore, s.bests)) =
    some (4, 4, [2, 4]) := by decide +kernel

end Nx
