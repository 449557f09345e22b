import Verif.Model.UsacHomography
import Verif.Props.HomRansac
import Verif.Props.Usac

/-!
# Lemmas about the estimation of homographies with USAC
-/

namespace Nx

theorem withData_back {K β : Type} {dflt : β} {s : UOutcome K} {f : UData K → Res (Run (β × UData K))} {d' : UData K}
    (h : (withData dflt s f).2 = .ok (.done d')) :
    ∃ d b, s = .ok (.done d) ∧ f d = .ok (.done (b, d')) ∧ (withData dflt s f).1 = b := by
  unfold withData at h ⊢
  split at h
  · rename_i d
    cases hf : f d with
    | ok r =>
      rw [hf] at h
      cases r with
      | done p =>
        simp only [Res.ok.injEq, Run.done.injEq] at h
        exact ⟨d, p.1, rfl, by rw [hf, ← h], rfl⟩
      | starved => cases h
      | nan => cases h
    | fatal => rw [hf] at h; cases h
    | ub => rw [hf] at h; cases h
  · rename_i hs
    exact absurd h (hs d')

theorem withData_done {K β : Type} {dflt b : β} {d d' : UData K} {f : UData K → Res (Run (β × UData K))}
    (h : f d = .ok (.done (b, d'))) : withData dflt (.ok (.done d)) f = (b, .ok (.done d')) := by
  simp only [withData, h]

theorem withData_ok {K β : Type} {dflt : β} {s : UOutcome K} {f : UData K → Res (Run (β × UData K))} (hs : ∃ r, s = .ok r)
    (hf : ∀ d, s = .ok (.done d) → ∃ r, f d = .ok r) : ∃ r, (withData dflt s f).2 = .ok r := by
  obtain ⟨r, rfl⟩ := hs
  cases r with
  | starved => exact ⟨_, rfl⟩
  | nan => exact ⟨_, rfl⟩
  | done d =>
    obtain ⟨r, hr⟩ := hf d rfl
    cases r <;> simp only [withData, hr] <;> exact ⟨_, rfl⟩

/-- What does not end with data has the default value. -/
theorem withData_dflt {K β : Type} {dflt : β} {s : UOutcome K} {f : UData K → Res (Run (β × UData K))}
    (h : ∀ d', (withData dflt s f).2 ≠ .ok (.done d')) : (withData dflt s f).1 = dflt := by
  unfold withData at h ⊢
  split
  · rename_i d
    cases hf : f d with
    | ok r =>
      cases r with
      | done p => simp only [hf] at h; exact absurd rfl (h p.2)
      | starved => rfl
      | nan => rfl
    | fatal => rfl
    | ub => rfl
  · rfl

variable {svd : List (Fin 9 → ℝ) → (Fin 9 → Fin 9 → ℝ) × List ℝ}

theorem uGt_irrefl (m tol : ℝ) (n : Nat) (maxIter : Int) (undef : Option Int) (a : Option Nat) :
    (usacHConfig svd m n tol maxIter undef).gt a a = false := by
  cases a with
  | none => rfl
  | some a => simp [usacHConfig]

theorem uGt_trans (m tol : ℝ) (n : Nat) (maxIter : Int) (undef : Option Int) (a b d : Option Nat)
    (h1 : (usacHConfig svd m n tol maxIter undef).gt a b = true) (h2 : (usacHConfig svd m n tol maxIter undef).gt b d = true) :
    (usacHConfig svd m n tol maxIter undef).gt a d = true := by
  cases a <;> cases b <;> cases d <;> simp_all [usacHConfig]
  omega

/-- A model of the loop: if it passes the check it is scored, and it becomes the best one if it has more inliers. -/
theorem usacModel_eq (m tol : ℝ) (n : Nat) (maxIter : Int) (undef : Option Int) (ids : Nat × Nat × Nat × Nat)
    (s : UsacState (UOutcome ℝ) (M3 ℝ) (Option Nat)) (g : M3 ℝ) :
    usacModel (usacHConfig svd m n tol maxIter undef) ids s g =
      if homographyCheck g m = true then
        if (usacHConfig svd m n tol maxIter undef).gt (usacHScore n tol g s.data).1 s.bestScore = true then
          (s.called g (usacHScore n tol g s.data).1 false true (usacHScore n tol g s.data).2).update g (usacHScore n tol g s.data).1
        else s.called g (usacHScore n tol g s.data).1 false true (usacHScore n tol g s.data).2
      else s := by
  unfold usacModel
  cases hc : homographyCheck g m with
  | false => simp only [usacHConfig, hc, if_true, Bool.false_eq_true, if_false]
  | true =>
    simp only [usacHConfig, hc, Bool.true_eq_false, if_false, if_true, usacImprove, Bool.not_true]
    rfl

theorem usacHLoop_succ (m tol : ℝ) (n : Nat) (maxIter : Int) (undef : Option Int) (fuel : Nat) (ids : Nat × Nat × Nat × Nat)
    (s : UsacState (UOutcome ℝ) (M3 ℝ) (Option Nat)) :
    usacLoop (usacHConfig svd m n tol maxIter undef) (fuel + 1) ids s =
      if (usacHTerminate n maxIter undef s.bestScore s.data).1 = true then
        some (ids, { s with data := (usacHTerminate n maxIter undef s.bestScore s.data).2 })
      else
        let q := usacHSample ids (usacHTerminate n maxIter undef s.bestScore s.data).2
        usacLoop (usacHConfig svd m n tol maxIter undef) fuel q.1
          (List.foldl (usacModel (usacHConfig svd m n tol maxIter undef) q.1) { s with data := (usacHFit q.1 q.2).2 }
            (usacHFit q.1 q.2).1) := by
  rfl

theorem usacHModel_nIter {m tol : ℝ} {n : Nat} {maxIter : Int} {undef : Option Int} {ids : Nat × Nat × Nat × Nat}
    {s : UsacState (UOutcome ℝ) (M3 ℝ) (Option Nat)} {g : M3 ℝ} {d' : UData ℝ}
    (h : (usacModel (usacHConfig svd m n tol maxIter undef) ids s g).data = .ok (.done d')) :
    ∃ d, s.data = .ok (.done d) ∧ d'.nIter = d.nIter := by
  rw [usacModel_eq] at h
  have key : (usacHScore n tol g s.data).2 = .ok (.done d') → ∃ d, s.data = .ok (.done d) ∧ d'.nIter = d.nIter := by
    intro h
    obtain ⟨d, b, e1, e2, -⟩ := withData_back h
    obtain ⟨r, -, e3⟩ := Res.bind_eq_ok.mp e2
    cases e3
    exact ⟨d, e1, rfl⟩
  split at h
  · split at h
    · exact key h
    · exact key h
  · exact ⟨d', h, rfl⟩

theorem usacHFold_nIter {m tol : ℝ} {n : Nat} {maxIter : Int} {undef : Option Int} {ids : Nat × Nat × Nat × Nat} (l : List (M3 ℝ))
    {s : UsacState (UOutcome ℝ) (M3 ℝ) (Option Nat)} {d' : UData ℝ}
    (h : (List.foldl (usacModel (usacHConfig svd m n tol maxIter undef) ids) s l).data = .ok (.done d')) :
    ∃ d, s.data = .ok (.done d) ∧ d'.nIter = d.nIter := by
  induction l generalizing s with
  | nil => exact ⟨d', h, rfl⟩
  | cons g l ih =>
    obtain ⟨d1, e1, e2⟩ := ih h
    obtain ⟨d, e3, e4⟩ := usacHModel_nIter e1
    exact ⟨d, e3, by omega⟩

theorem usacHBody_nIter {m tol : ℝ} {n : Nat} {maxIter : Int} {undef : Option Int} {ids : Nat × Nat × Nat × Nat} {u : UOutcome ℝ}
    {s : UsacState (UOutcome ℝ) (M3 ℝ) (Option Nat)} {d' : UData ℝ}
    (h : (List.foldl (usacModel (usacHConfig svd m n tol maxIter undef) (usacHSample ids u).1)
      { s with data := (usacHFit (usacHSample ids u).1 (usacHSample ids u).2).2 }
      (usacHFit (usacHSample ids u).1 (usacHSample ids u).2).1).data = .ok (.done d')) :
    ∃ d, u = .ok (.done d) ∧ d'.nIter = d.nIter := by
  obtain ⟨d1, e1, e2⟩ := usacHFold_nIter _ h
  obtain ⟨d2, b, e3, e4, -⟩ := withData_back e1
  obtain ⟨r, -, e5⟩ := Res.bind_eq_ok.mp e4
  cases e5
  obtain ⟨d3, b, e6, e7, -⟩ := withData_back e3
  cases hsel : selectProsac4 d3.nTop d3.rnd with
  | none => rw [hsel] at e7; cases e7
  | some p =>
    rw [hsel] at e7
    cases e7
    exact ⟨d3, e6, e2⟩

/-- Where a hypothesis comes from, and what it scored. -/
structure UHyp (m tol : ℝ) (n : Nat) (c0 : List (PMatch ℝ)) (rnd0 : List (BitVec 32)) (e : ScoreCall (M3 ℝ) (Option Nat)) : Prop where
  score : e.score = some (Nx.score (hTest tol e.model) n c0)
  check : homographyCheck e.model m = true
  kept : e.rejected = false
  origin : ∃ t vs vs' i det, t ≤ n ∧ min n 10 ≤ t ∧ (∀ v ∈ vs, v ∈ rnd0) ∧ selectProsac4 t vs = some (i, vs') ∧ det ≠ 0 ∧
    estimate4pt zeroModel (ids4 i) c0 = .ok (e.model, det)

/-- What the loop keeps. -/
structure UInv (m tol : ℝ) (n : Nat) (maxIter : Int) (c0 : List (PMatch ℝ)) (rnd0 : List (BitVec 32))
    (s : UsacState (UOutcome ℝ) (M3 ℝ) (Option Nat)) (d : UData ℝ) : Prop where
  same : unmark n d.corr = unmark n c0
  top : d.nTop ≤ n ∧ min n 10 ≤ d.nTop
  sub : ∀ v ∈ d.rnd, v ∈ rnd0
  hyps : ∀ e ∈ s.calls, UHyp m tol n c0 rnd0 e
  len : s.calls.length ≤ d.nIter
  iter : s.calls.length ≤ (maxIter - 1).toNat

variable {m tol : ℝ} {n : Nat} {maxIter : Int} {undef : Option Int} {c0 : List (PMatch ℝ)} {rnd0 : List (BitVec 32)}

theorem usacHScore_done {g : M3 ℝ} {d : UData ℝ} (h0 : n ≤ c0.length) (hs : unmark n d.corr = unmark n c0) :
    usacHScore n tol g (.ok (.done d)) =
      (some (score (hTest tol g) n c0), .ok (.done { d with corr := markAll (hTest tol g) n c0 })) := by
  unfold usacHScore
  apply withData_done
  have := mark_of_unmark (hTest_blind tol g) h0 hs
  simp only [markInliers, Int.toNat_natCast]
  change (markLoop (hTest tol g) n d.corr 0).bind _ = _
  rw [this]
  rfl

/-- One model. -/
theorem usacHModel_inv (h0 : n ≤ c0.length) {s : UsacState (UOutcome ℝ) (M3 ℝ) (Option Nat)} {d : UData ℝ} (g : M3 ℝ)
    (ids : Nat × Nat × Nat × Nat) (hd : s.data = .ok (.done d)) (hs : UInv m tol n maxIter c0 rnd0 s d)
    (hlen : s.calls.length + 1 ≤ d.nIter) (hit : (d.nIter : Int) < maxIter)
    (ho : ∃ t vs vs' i det, t ≤ n ∧ min n 10 ≤ t ∧ (∀ v ∈ vs, v ∈ rnd0) ∧ selectProsac4 t vs = some (i, vs') ∧ det ≠ 0 ∧
      estimate4pt zeroModel (ids4 i) c0 = .ok (g, det)) :
    ∃ d', (usacModel (usacHConfig svd m n tol maxIter undef) ids s g).data = .ok (.done d') ∧ d'.nIter = d.nIter ∧
      UInv m tol n maxIter c0 rnd0 (usacModel (usacHConfig svd m n tol maxIter undef) ids s g) d' := by
  rw [usacModel_eq]
  split
  · rename_i hc
    rw [hd, usacHScore_done h0 hs.same]
    have key : ∀ t : UsacState (UOutcome ℝ) (M3 ℝ) (Option Nat),
        t.data = .ok (.done { d with corr := markAll (hTest tol g) n c0 }) →
        t.calls = s.calls ++ [⟨g, some (score (hTest tol g) n c0), false, true⟩] →
        ∃ d', t.data = .ok (.done d') ∧ d'.nIter = d.nIter ∧ UInv m tol n maxIter c0 rnd0 t d' := by
      intro t h1 h2
      refine ⟨_, h1, rfl, unmark_markAll h0, hs.top, hs.sub, ?_, ?_, ?_⟩
      · intro e he
        rw [h2, List.mem_append, List.mem_singleton] at he
        rcases he with he | rfl
        · exact hs.hyps e he
        · exact ⟨rfl, hc, rfl, ho⟩
      · rw [h2, List.length_append]
        exact hlen
      · rw [h2, List.length_append]
        simp only [List.length_singleton]
        omega
    split
    · exact key _ rfl rfl
    · exact key _ rfl rfl
  · exact ⟨d, hd, rfl, hs⟩

theorem usacHTerminate_back {score : Option Nat} {s : UOutcome ℝ} {d' : UData ℝ}
    (h : (usacHTerminate n maxIter undef score s).2 = .ok (.done d')) :
    ∃ d, s = .ok (.done d) ∧ d' = { d with nIter := d.nIter + 1, nTop := if d.nTop + 1 ≥ n then n else d.nTop + 1 } ∧
      (((d.nIter : Int) + 1 ≥ maxIter) → (usacHTerminate n maxIter undef score s).1 = true) ∧
      ((∃ k, score = some k) → ((usacHTerminate n maxIter undef score s).1 = true ↔
        ((d.nIter : Int) + 1 ≥ maxIter ∨ ∃ k, score = some k ∧ 200 ≤ k))) ∧
      (∀ v, score = none → undef = some v → ((usacHTerminate n maxIter undef score s).1 = true ↔
        ((d.nIter : Int) + 1 ≥ maxIter ∨ v ≥ 200))) := by
  unfold usacHTerminate at h ⊢
  obtain ⟨d, b, e1, e2, e3⟩ := withData_back h
  refine ⟨d, e1, ?_⟩
  rw [e3]
  simp only at e2
  cases score with
  | some k =>
    simp only [Res.ok.injEq, Run.done.injEq, Prod.mk.injEq] at e2
    obtain ⟨e2, e4⟩ := e2
    refine ⟨e4.symm, ?_, ?_, ?_⟩
    · intro hh
      rw [← e2, decide_eq_true_eq]
      exact .inl (by push_cast; omega)
    · intro _
      rw [← e2, decide_eq_true_eq]
      push_cast
      simp
    · intro v h; cases h
  | none =>
    cases undef with
    | none => cases e2
    | some v =>
      simp only [Res.ok.injEq, Run.done.injEq, Prod.mk.injEq] at e2
      obtain ⟨e2, e4⟩ := e2
      refine ⟨e4.symm, ?_, ?_, ?_⟩
      · intro hh
        rw [← e2, decide_eq_true_eq]
        exact .inl (by push_cast; omega)
      · rintro ⟨k, hk⟩; cases hk
      · intro w _ hw
        cases hw
        rw [← e2, decide_eq_true_eq]
        push_cast
        rfl

/-- The body of the main loop after a termination test that fails. -/
theorem usac_body_inv (h0 : n ≤ c0.length) (ids : Nat × Nat × Nat × Nat) {s : UsacState (UOutcome ℝ) (M3 ℝ) (Option Nat)}
    {d : UData ℝ} (hd : s.data = .ok (.done d)) (hs : UInv m tol n maxIter c0 rnd0 s d)
    (hlen : s.calls.length + 1 ≤ d.nIter) (hit : (d.nIter : Int) < maxIter) (d' : UData ℝ)
    (he : (List.foldl (usacModel (usacHConfig svd m n tol maxIter undef) (usacHSample ids s.data).1)
        { s with data := (usacHFit (usacHSample ids s.data).1 (usacHSample ids s.data).2).2 }
        (usacHFit (usacHSample ids s.data).1 (usacHSample ids s.data).2).1).data = .ok (.done d')) :
    d'.nIter = d.nIter ∧ UInv m tol n maxIter c0 rnd0
      (List.foldl (usacModel (usacHConfig svd m n tol maxIter undef) (usacHSample ids s.data).1)
        { s with data := (usacHFit (usacHSample ids s.data).1 (usacHSample ids s.data).2).2 }
        (usacHFit (usacHSample ids s.data).1 (usacHSample ids s.data).2).1) d' := by
  by_cases hq : ∃ d1, (usacHSample ids s.data).2 = .ok (.done d1)
  · obtain ⟨d1, hd1⟩ := hq
    unfold usacHSample at hd1
    obtain ⟨d2, i, e1, e2, e3⟩ := withData_back hd1
    rw [hd] at e1
    cases e1
    rw [← usacHSample] at e3 hd1
    rw [e3, hd1] at he ⊢
    cases hsel : selectProsac4 d.nTop d.rnd with
    | none => rw [hsel] at e2; cases e2
    | some p =>
      rw [hsel] at e2
      simp only [Res.ok.injEq, Run.done.injEq, Prod.mk.injEq] at e2
      obtain ⟨rfl, rfl⟩ := e2
      by_cases hf : ∃ d3, (usacHFit p.1 (.ok (.done { d with rnd := p.2 }))).2 = .ok (.done d3)
      · obtain ⟨d3, hd3⟩ := hf
        unfold usacHFit at hd3
        obtain ⟨d4, gs, f1, f2, f3⟩ := withData_back hd3
        cases f1
        rw [← usacHFit] at f3 hd3
        rw [f3, hd3] at he ⊢
        obtain ⟨⟨g, det⟩, r1, r2⟩ := Res.bind_eq_ok.mp f2
        simp only [Res.ok.injEq, Run.done.injEq, Prod.mk.injEq] at r2
        obtain ⟨r2, rfl⟩ := r2
        have hinv : UInv m tol n maxIter c0 rnd0 { s with data := .ok (.done { d with rnd := p.2 }) } { d with rnd := p.2 } :=
          ⟨hs.same, hs.top, fun v hv => hs.sub v (selectProsac4_sub hsel v hv), hs.hyps, hs.len, hs.iter⟩
        by_cases hdet : det = 0
        · rw [if_pos hdet] at r2
          subst r2
          simp only [List.foldl_nil] at he ⊢
          cases he
          exact ⟨rfl, hinv⟩
        · rw [if_neg hdet] at r2
          subst r2
          simp only [List.foldl_cons, List.foldl_nil] at he ⊢
          obtain ⟨d5, g1, g2, g3⟩ := usacHModel_inv (svd := svd) (undef := undef) (maxIter := maxIter) (m := m) (tol := tol)
            (rnd0 := rnd0) h0 g p.1 (s := { s with data := .ok (.done { d with rnd := p.2 }) }) rfl hinv hlen hit
            ⟨d.nTop, d.rnd, p.2, p.1, det, hs.top.1, hs.top.2, hs.sub, hsel, hdet, estimate4pt_congr hs.same r1⟩
          rw [g1] at he
          cases he
          exact ⟨g2, g3⟩
      · have hnil : (usacHFit p.1 (.ok (.done { d with rnd := p.2 }) : UOutcome ℝ)).1 = [] :=
          withData_dflt (fun d' h => hf ⟨d', h⟩)
        rw [hnil] at he
        exact absurd ⟨d', he⟩ hf
  · have hnil : (usacHFit (usacHSample ids s.data).1 (usacHSample ids s.data).2).1 = [] := by
      apply withData_dflt
      intro d3 h3
      obtain ⟨d4, gs, f1, f2, f3⟩ := withData_back h3
      exact hq ⟨d4, f1⟩
    rw [hnil] at he
    simp only [List.foldl_nil] at he
    obtain ⟨d4, gs, f1, f2, f3⟩ := withData_back he
    exact absurd ⟨d4, f1⟩ hq

/-- The main loop keeps the invariant. -/
theorem usacHLoop_inv (h0 : n ≤ c0.length) (fuel : Nat) (ids : Nat × Nat × Nat × Nat)
    (s : UsacState (UOutcome ℝ) (M3 ℝ) (Option Nat)) (hs : ∀ d, s.data = .ok (.done d) → UInv m tol n maxIter c0 rnd0 s d)
    (r : (Nat × Nat × Nat × Nat) × UsacState (UOutcome ℝ) (M3 ℝ) (Option Nat))
    (h : usacLoop (usacHConfig svd m n tol maxIter undef) fuel ids s = some r) :
    ∀ d, r.2.data = .ok (.done d) → UInv m tol n maxIter c0 rnd0 r.2 d := by
  induction fuel generalizing ids s with
  | zero => cases h
  | succ fuel ih =>
    rw [usacHLoop_succ] at h
    split at h
    · cases h
      intro d' hd'
      simp only at hd'
      obtain ⟨d, e1, e2, -⟩ := usacHTerminate_back hd'
      have hi := hs d e1
      subst e2
      refine ⟨hi.same, ?_, hi.sub, hi.hyps, ?_, hi.iter⟩
      · have := hi.top
        simp only
        split <;> omega
      · have := hi.len
        simp only
        omega
    · rename_i ht
      refine ih _ _ ?_ h
      intro d' hd'
      by_cases hq : ∃ d1, (usacHTerminate n maxIter undef s.bestScore s.data).2 = .ok (.done d1)
      · obtain ⟨d1, hd1⟩ := hq
        obtain ⟨d, e1, e2, e3, -⟩ := usacHTerminate_back hd1
        have hi := hs d e1
        have hmax : (d.nIter : Int) + 1 < maxIter := by
          by_contra hh
          exact ht (e3 (by omega))
        have hinv : UInv m tol n maxIter c0 rnd0 { s with data := .ok (.done d1) } d1 := by
          subst e2
          refine ⟨hi.same, ?_, hi.sub, hi.hyps, ?_, hi.iter⟩
          · have := hi.top
            simp only
            split <;> omega
          · have := hi.len
            simp only
            omega
        have hb := usac_body_inv (svd := svd) (undef := undef) h0 ids (s := { s with data := .ok (.done d1) }) rfl hinv
          (by have := hi.len; subst e2; simp only; omega) (by subst e2; simp only; push_cast; omega) d'
          (by rw [← hd1]; exact hd')
        rw [← hd1] at hb
        exact hb.2
      · exact absurd (withData_dflt (fun d' h => hq ⟨d', h⟩)) ht

/-- The loop ends within the given number of iterations. -/
theorem usacHLoop_ends (fuel : Nat) (ids : Nat × Nat × Nat × Nat) (s : UsacState (UOutcome ℝ) (M3 ℝ) (Option Nat))
    (hf : 0 < fuel) (hs : ∀ d, s.data = .ok (.done d) → maxIter ≤ fuel + d.nIter) :
    usacLoop (usacHConfig svd m n tol maxIter undef) fuel ids s ≠ none := by
  induction fuel generalizing ids s with
  | zero => omega
  | succ fuel ih =>
    rw [usacHLoop_succ]
    split
    · simp
    · rename_i ht
      by_cases hq : ∃ d1, (usacHTerminate n maxIter undef s.bestScore s.data).2 = .ok (.done d1)
      · obtain ⟨d1, hd1⟩ := hq
        obtain ⟨d, e1, e2, e3, -⟩ := usacHTerminate_back hd1
        have hi := hs d e1
        have hmax : (d.nIter : Int) + 1 < maxIter := by
          by_contra hh
          exact ht (e3 (by omega))
        refine ih _ _ (by push_cast at hi; omega) ?_
        intro d' hd'
        obtain ⟨d2, f1, f2⟩ := usacHBody_nIter hd'
        rw [hd1] at f1
        cases f1
        rw [f2, e2]
        push_cast at hi ⊢
        omega
      · exact absurd (withData_dflt (fun d' h => hq ⟨d', h⟩)) ht

/-- With a value for the undefined conversion and random numbers in range there is no undefined behaviour in the loop. -/
theorem usacHLoop_safe (h0 : n ≤ c0.length) (h4 : 4 ≤ n) (h24 : n ≤ 16777216) (hr : ∀ v ∈ rnd0, v.toNat < 4294967168) (v : Int)
    (fuel : Nat) (ids : Nat × Nat × Nat × Nat)
    (s : UsacState (UOutcome ℝ) (M3 ℝ) (Option Nat)) (hs : ∀ d, s.data = .ok (.done d) → UInv m tol n maxIter c0 rnd0 s d)
    (hok : ∃ x, s.data = .ok x) (r : (Nat × Nat × Nat × Nat) × UsacState (UOutcome ℝ) (M3 ℝ) (Option Nat))
    (h : usacLoop (usacHConfig svd m n tol maxIter (some v)) fuel ids s = some r) : ∃ x, r.2.data = .ok x := by
  induction fuel generalizing ids s with
  | zero => cases h
  | succ fuel ih =>
    have hloop := usacHLoop_inv (svd := svd) (m := m) (tol := tol) (undef := some v) (maxIter := maxIter) (rnd0 := rnd0) h0
    have ht : ∃ x, (usacHTerminate n maxIter (some v) s.bestScore s.data).2 = .ok x := by
      apply withData_ok hok
      intro d _
      cases s.bestScore <;> exact ⟨_, rfl⟩
    rw [usacHLoop_succ] at h
    split at h
    · cases h
      exact ht
    · rename_i hf
      by_cases hq : ∃ d1, (usacHTerminate n maxIter (some v) s.bestScore s.data).2 = .ok (.done d1)
      · obtain ⟨d1, hd1⟩ := hq
        obtain ⟨d, e1, e2, e3, -⟩ := usacHTerminate_back hd1
        have hi := hs d e1
        have hmax : (d.nIter : Int) + 1 < maxIter := by
          by_contra hh
          exact hf (e3 (by omega))
        have hinv : UInv m tol n maxIter c0 rnd0 { s with data := .ok (.done d1) } d1 := by
          subst e2
          refine ⟨hi.same, ?_, hi.sub, hi.hyps, ?_, hi.iter⟩
          · have := hi.top
            simp only
            split <;> omega
          · have := hi.len
            simp only
            omega
        rw [hd1] at h
        refine ih _ _ ?_ ?_ h
        · intro d' hd'
          exact (usac_body_inv (svd := svd) (undef := some v) h0 ids (s := { s with data := .ok (.done d1) }) rfl hinv
            (by have := hi.len; subst e2; simp only; omega) (by subst e2; simp only; push_cast; omega) d' hd').2
        · have hlen : c0.length = d1.corr.length := by
            have := congrArg List.length hinv.same
            rw [unmark_length, unmark_length] at this
            exact this.symm
          cases hsel : selectProsac4 d1.nTop d1.rnd with
          | none =>
            have e : usacHSample ids (.ok (.done d1) : UOutcome ℝ) = (ids, .ok .starved) := by
              simp only [usacHSample, withData, hsel]
            rw [e]
            exact ⟨_, rfl⟩
          | some p =>
            have e : usacHSample ids (.ok (.done d1) : UOutcome ℝ) = (p.1, .ok (.done { d1 with rnd := p.2 })) := by
              simp only [usacHSample, withData, hsel]
            rw [e]
            obtain ⟨⟨a, b, c, dd⟩, vs⟩ := p
            obtain ⟨-, -, -, -, -, -, hlt⟩ := c69_select4_partial _ _ _ _ _ _ _ hsel
            have htop := hinv.top
            obtain ⟨⟨g, det⟩, eg⟩ := estimate4pt_total (zeroModel : M3 ℝ) (a, b, c, dd) d1.corr (fun j hj =>
              lt_of_lt_of_le (hlt (by omega) (by omega) (fun v hv => hr v (hinv.sub v hv)) j hj) (by omega))
            have ef : usacHFit (a, b, c, dd) (.ok (.done { d1 with rnd := vs }) : UOutcome ℝ)
                = (if det = 0 then [] else [g], .ok (.done { d1 with rnd := vs })) := by
              unfold usacHFit
              apply withData_done
              simp only [eg, Res.bind]
            rw [ef]
            by_cases hdet : det = 0
            · rw [if_pos hdet]
              exact ⟨_, rfl⟩
            · rw [if_neg hdet]
              obtain ⟨d5, g1, -, -⟩ := usacHModel_inv (svd := svd) (undef := some v) (maxIter := maxIter) (m := m) (tol := tol)
                (rnd0 := rnd0) h0 g (a, b, c, dd) (s := { s with data := .ok (.done { d1 with rnd := vs }) })
                (d := { d1 with rnd := vs }) rfl
                ⟨hinv.same, hinv.top, fun v hv => hinv.sub v (selectProsac4_sub hsel v hv), hinv.hyps, hinv.len, hinv.iter⟩
                (by have := hi.len; subst e2; simp only; omega) (by subst e2; simp only; push_cast; omega)
                ⟨d1.nTop, d1.rnd, vs, (a, b, c, dd), det, hinv.top.1, hinv.top.2, hinv.sub, hsel, hdet,
                  estimate4pt_congr hinv.same eg⟩
              exact ⟨_, g1⟩
      · exact absurd (withData_dflt (fun d' h => hq ⟨d', h⟩)) hf

theorem markLoop_le {K : Type} {test : PMatch K → Bool} (n : Nat) (l : List (PMatch K)) (acc : Nat) (r : List (PMatch K) × Nat)
    (h : markLoop test n l acc = .ok r) : r.2 ≤ acc + n := by
  induction n generalizing l acc r with
  | zero => cases h; simp
  | succ n ih =>
    cases l with
    | nil => cases h
    | cons c l =>
      rw [markLoop] at h
      obtain ⟨r', h1, h2⟩ := Res.bind_eq_ok.mp h
      cases h2
      have := ih _ _ _ h1
      simp only
      split at this <;> omega

/-- No score exceeds the number of matches. -/
theorem usacHScore_le (g : M3 ℝ) (u : UOutcome ℝ) : (usacHConfig svd m n tol maxIter undef).gt (usacHScore n tol g u).1 (some n) = false := by
  by_cases hq : ∃ d, (usacHScore n tol g u).2 = .ok (.done d)
  · obtain ⟨d', hd'⟩ := hq
    obtain ⟨d, b, e1, e2, e3⟩ := withData_back hd'
    rw [← usacHScore] at e3
    rw [e3]
    obtain ⟨r, r1, r2⟩ := Res.bind_eq_ok.mp e2
    simp only [Res.ok.injEq, Run.done.injEq, Prod.mk.injEq] at r2
    rw [← r2.1]
    have := markLoop_le _ _ _ _ r1
    simp only [Int.toNat_natCast] at this
    simp only [usacHConfig, decide_eq_false_iff_not]
    omega
  · have : (usacHScore n tol g u).1 = none := withData_dflt (fun d' h => hq ⟨d', h⟩)
    rw [this]
    rfl

/-- A hypothesis with all matches as inliers is not replaced. -/
theorem usacHLoop_stay (fuel : Nat) (ids : Nat × Nat × Nat × Nat) (s : UsacState (UOutcome ℝ) (M3 ℝ) (Option Nat))
    (hb : s.bestScore = some n) (r : (Nat × Nat × Nat × Nat) × UsacState (UOutcome ℝ) (M3 ℝ) (Option Nat))
    (h : usacLoop (usacHConfig svd m n tol maxIter undef) fuel ids s = some r) : r.2.bestScore = some n ∧ r.2.best = s.best := by
  have hmodel : ∀ ids (s : UsacState (UOutcome ℝ) (M3 ℝ) (Option Nat)) g, s.bestScore = some n →
      (usacModel (usacHConfig svd m n tol maxIter undef) ids s g).bestScore = some n ∧
      (usacModel (usacHConfig svd m n tol maxIter undef) ids s g).best = s.best := by
    intro ids s g hs
    rw [usacModel_eq]
    split
    · rw [hs, usacHScore_le, if_neg (by decide)]
      exact ⟨hs, rfl⟩
    · exact ⟨hs, rfl⟩
  have hfold : ∀ ids l (s : UsacState (UOutcome ℝ) (M3 ℝ) (Option Nat)), s.bestScore = some n →
      (List.foldl (usacModel (usacHConfig svd m n tol maxIter undef) ids) s l).bestScore = some n ∧
      (List.foldl (usacModel (usacHConfig svd m n tol maxIter undef) ids) s l).best = s.best := by
    intro ids l
    induction l with
    | nil => intro s hs; exact ⟨hs, rfl⟩
    | cons g l ih =>
      intro s hs
      obtain ⟨a, b⟩ := hmodel ids s g hs
      obtain ⟨c, d⟩ := ih _ a
      exact ⟨c, d.trans b⟩
  induction fuel generalizing ids s with
  | zero => cases h
  | succ fuel ih =>
    rw [usacHLoop_succ] at h
    split at h
    · cases h
      exact ⟨hb, rfl⟩
    · have hs' := hfold (usacHSample ids (usacHTerminate n maxIter undef s.bestScore s.data).2).1
        (usacHFit (usacHSample ids (usacHTerminate n maxIter undef s.bestScore s.data).2).1
          (usacHSample ids (usacHTerminate n maxIter undef s.bestScore s.data).2).2).1
        { s with data := (usacHFit (usacHSample ids (usacHTerminate n maxIter undef s.bestScore s.data).2).1
          (usacHSample ids (usacHTerminate n maxIter undef s.bestScore s.data).2).2).2 } hb
      obtain ⟨c, d⟩ := ih _ _ hs'.1 h
      exact ⟨c, d.trans hs'.2⟩

end Nx
