import Verif.Props.StereoRefine
import Mathlib.Algebra.Order.Ring.Rat
import Mathlib.Algebra.Field.Rat

/-! # C105: the steps of the refinement -/

namespace Nx

section
variable {K : Type} [Field K] [DecidableEq K]

/-! ## The matrix of the normal equations -/

/-- The element that is computed: only the last product remains, and one factor is taken from another place. -/
def levMarValue (n m : Nat) (jt : List K) (r c : Nat) : K :=
  if m = 0 then 0 else (jt[(m - 1) * n + r]?).getD 0 * (jt[c * m + (m - 1)]?).getD 0

omit [DecidableEq K] in
theorem levMarEntry_spec {n m : Nat} {jt A : List K} {c r : Nat} (hjt : jt.length = n * m) (hA : c * n + r < A.length) (hr : r < n) (hc : c < n) :
    levMarEntry n m jt c r A = .ok (A.set (c * n + r) (levMarValue n m jt r c)) := by
  unfold levMarEntry
  rw [writeAt_ok _ hA, Res.ok_bind]
  obtain ⟨s, e, hs⟩ := forLoop_spec (fun k s => s = A.set (c * n + r) (levMarValue n k (if k = 0 then [] else jt) r c) ∨
      (k = 0 ∧ s = A.set (c * n + r) 0) ∨ (0 < k ∧ s = A.set (c * n + r) ((jt[(k - 1) * n + r]?).getD 0 * (jt[c * m + (k - 1)]?).getD 0)))
    (n := m) (body := levMarTerm n m jt c r) (i0 := 0) (s := A.set (c * n + r) 0) (Nat.zero_le _) (Or.inr (Or.inl ⟨rfl, rfl⟩)) (by
      intro k s _ hk hs
      have h1 : k * n + r < jt.length := by
        rw [hjt]
        have := Nat.mul_le_mul_right n (Nat.succ_le_of_lt hk)
        rw [Nat.succ_mul, Nat.mul_comm m n] at this
        omega
      have h2 : c * m + k < jt.length := by
        rw [hjt]
        have := Nat.mul_le_mul_right m (Nat.succ_le_of_lt hc)
        rw [Nat.succ_mul] at this
        omega
      have hsl : c * n + r < s.length := by
        rcases hs with h | ⟨_, h⟩ | ⟨_, h⟩ <;> rw [h, List.length_set] <;> exact hA
      unfold levMarTerm
      rw [readAt_ok h1, Res.ok_bind, readAt_ok h2, Res.ok_bind, writeAt_ok _ hsl]
      refine ⟨_, rfl, Or.inr (Or.inr ⟨by omega, ?_⟩)⟩
      rw [Nat.add_sub_cancel, List.getElem?_eq_getElem h1, List.getElem?_eq_getElem h2]
      rcases hs with h | ⟨_, h⟩ | ⟨_, h⟩ <;> rw [h, List.set_set] <;> rfl)
  rw [e]
  congr 1
  unfold levMarValue
  by_cases hm : m = 0
  · subst hm
    rcases hs with h | ⟨_, h⟩ | ⟨h0, _⟩
    · rw [h]; rfl
    · rw [h, if_pos rfl]
    · omega
  · rw [if_neg hm]
    rcases hs with h | ⟨h0, _⟩ | ⟨_, h⟩
    · rw [h, levMarValue, if_neg hm, if_neg hm]
    · omega
    · exact h

omit [DecidableEq K] in
/-- C105, in part. All accesses are inside the arrays; but the elements are not those of the normal equations: each is one product, of the
last row of the Jacobian and of a number from another place. -/
theorem c105_normal_partial {n m : Nat} {jt A : List K} (lambda : K) (hjt : jt.length = n * m) (hA : A.length = n * n) :
    ∃ A', levMarA n A lambda m jt = .ok A' ∧ A'.length = n * n ∧
      ∀ r c, r < n → c < n → A'[c * n + r]? = some ((if m = 0 then 0 else (jt[(m - 1) * n + r]?).getD 0 * (jt[c * m + (m - 1)]?).getD 0) *
        (if r = c then 1 + lambda else 1)) := by
  have hin : ∀ r c, r < n → c < n → c * n + r < n * n := by
    intro r c hr hc
    have := Nat.mul_le_mul_right n (Nat.succ_le_of_lt hc)
    rw [Nat.succ_mul] at this
    omega
  obtain ⟨A1, e1, hF⟩ := col_fill_spec (ld := n) (H := n) (w := n) (d0 := A) (f := fun r c => levMarValue n m jt r c)
    (body := fun c r A => levMarEntry n m jt c r A) (Nat.le_refl _) (by rw [hA]; exact hin) (by
      intro c r d hc hr hd
      rw [levMarEntry_spec hjt (by rw [hd, hA]; exact hin r c hr hc) hr hc])
  unfold levMarA
  rw [e1, Res.ok_bind]
  have hlen : A1.length = n * n := by rw [hF.len, hA]
  obtain ⟨A2, e2, hl2, h2⟩ := forLoop_spec
    (fun i (B : List K) => B.length = n * n ∧ ∀ r c, r < n → c < n → B[c * n + r]? =
      some (levMarValue n m jt r c * (if r = c ∧ r < i then 1 + lambda else 1)))
    (n := n) (body := levMarDiag n lambda) (i0 := 0) (s := A1) (Nat.zero_le _)
    ⟨hlen, by intro r c hr hc; rw [hF.here r c hr hc (Or.inl hc), if_neg (by omega), mul_one]⟩ (by
      intro i B _ hi ⟨hB, hval⟩
      have hii := hin i i hi hi
      have hv := hval i i hi hi
      unfold levMarDiag
      rw [readAt_some hv, Res.ok_bind, writeAt_ok _ (by rw [hB]; exact hii)]
      refine ⟨_, rfl, by rw [List.length_set, hB], ?_⟩
      intro r c hr hc
      rw [List.getElem?_set]
      by_cases he : i * n + i = c * n + r
      · have h1 : c = i := by
          rcases Nat.lt_trichotomy c i with h | h | h
          · have := Nat.mul_le_mul_right n (Nat.succ_le_of_lt h)
            rw [Nat.succ_mul] at this
            omega
          · exact h
          · have := Nat.mul_le_mul_right n (Nat.succ_le_of_lt h)
            rw [Nat.succ_mul] at this
            omega
        subst h1
        have h2 : r = c := by omega
        subst h2
        rw [if_pos he, if_pos (by rw [hB]; exact hii), if_neg (by omega), if_pos (by omega)]
        congr 1
        ring
      · rw [if_neg he, hval r c hr hc]
        congr 2
        by_cases hrc : r = c
        · subst hrc
          have : r ≠ i := by
            intro h
            exact he (by rw [h])
          by_cases hri : r < i
          · rw [if_pos ⟨rfl, hri⟩, if_pos ⟨rfl, by omega⟩]
          · rw [if_neg (by omega), if_neg (by omega)]
        · rw [if_neg (by omega), if_neg (by omega)])
  refine ⟨A2, e2, hl2, ?_⟩
  intro r c hr hc
  rw [h2 r c hr hc]
  congr 2
  by_cases hrc : r = c
  · rw [if_pos ⟨hrc, hr⟩, if_pos hrc]
  · rw [if_neg (by omega), if_neg hrc]

/-- The Jacobian of one match. -/
def oneJacobian : List Rat := refineRows (2, 3) (refineHx ⟨1, 0, 0, 0, 1, 0, 0, 0, 1⟩ (2, 3))

/-- C105. The matrix is not that of the normal equations, and not even symmetric, for the Jacobian of a match at (2, 3) and the identity. -/
theorem c105_normal_false : ∃ A', levMarA 9 (List.replicate 81 0) 1 2 oneJacobian = .ok A' ∧ ¬ NormalMatrix 9 2 oneJacobian 1 A' ∧
    A'[1 * 9 + 5]? ≠ A'[5 * 9 + 1]? := by
  obtain ⟨A', e, -, hv⟩ := c105_normal_partial (n := 9) (m := 2) (jt := oneJacobian) (A := List.replicate 81 (0 : Rat)) 1
    (by decide +kernel) (by simp)
  refine ⟨A', e, ?_, ?_⟩
  · intro h
    have h1 := h 0 0 (by omega) (by omega)
    have h2 := hv 0 0 (by omega) (by omega)
    rw [h2] at h1
    revert h1
    decide +kernel
  · rw [hv 5 1 (by omega) (by omega), hv 1 5 (by omega) (by omega)]
    decide +kernel

omit [DecidableEq K] in
theorem addStep_ok {d : List K} (h : M3 K) (hd : d.length = 9) : ∃ h', addStep h d = .ok h' := by
  unfold addStep
  rw [readAt_ok (by omega), Res.ok_bind, readAt_ok (by omega), Res.ok_bind, readAt_ok (by omega), Res.ok_bind, readAt_ok (by omega), Res.ok_bind,
    readAt_ok (by omega), Res.ok_bind, readAt_ok (by omega), Res.ok_bind, readAt_ok (by omega), Res.ok_bind, readAt_ok (by omega), Res.ok_bind,
    readAt_ok (by omega), Res.ok_bind]
  exact ⟨_, rfl⟩

omit [DecidableEq K] in
/-- The gradient: the products of the columns of the Jacobian with the residuals. -/
theorem gradient_ok {N : Nat} {jt e jte : List K} (hjt : jt.length = 18 * N) (he : e.length = 2 * N) (hjte : jte.length = 9)
    (hN : 18 * N ≤ 2147483647) :
    ∃ g, dmatMul 9 1 (2 * N) jt 9 e (2 * N) jte 9 = .ok g ∧ g.length = 9 ∧
      ∀ (r : Fin 9), g[r.val]? = some (∑ j : Fin (2 * N), (jt[j.val * 9 + r.val]?).getD 0 * (e[j.val]?).getD 0) := by
  obtain ⟨g, eg, hg, hl, -⟩ := c57_dmat_mul (m := 9) (n := 1) (k := 2 * N) (A := jt) (ldA := 9) (B := e) (ldB := 2 * N) (C := jte) (ldC := 9)
    (Am := Matrix.of fun r c => (jt[c.val * 9 + r.val]?).getD 0) (Bm := Matrix.of fun r _ => (e[r.val]?).getD 0)
    (by
      intro r c
      have hlt : c.val * 9 + r.val < jt.length := by
        rw [hjt]
        have := c.isLt
        have := r.isLt
        omega
      rw [Matrix.of_apply, List.getElem?_eq_getElem hlt]
      rfl)
    (by
      intro r c
      have hc : c.val = 0 := by omega
      have hlt : r.val < e.length := by rw [he]; exact r.isLt
      rw [Matrix.of_apply, hc, Nat.zero_mul, Nat.zero_add, List.getElem?_eq_getElem hlt]
      rfl)
    (by omega) (by omega) (by omega) (by omega) (by intro r c hr hc; omega)
  refine ⟨g, eg, by rw [hl, hjte], ?_⟩
  intro r
  have := hg r 0
  simp only [Fin.val_zero, Nat.zero_mul, Nat.zero_add] at this
  rw [this, Matrix.mul_apply]
  rfl

end

section
variable {K : Type} [Field K] [LinearOrder K]

/-- The solver keeps the size of the right-hand side. -/
def KeepsSize (dsysv : List K → List K → Int × List K) : Prop := ∀ A b, b.length = 9 → (dsysv A b).2.length = 9

/-- What an accepted step has to do with the solver and with the mean. -/
structure Accepted (dsysv : List K → List K → Int × List K) (n : Nat) (pm : List (PMatch K)) (h : M3 K) (E : K) (step : List K) : Prop where
  size : step.length = 9
  unsolved : ∃ A b, b.length = 9 ∧ (dsysv A b).1 ≠ 0 ∧ step = (dsysv A b).2
  better : ∃ h' v, addStep h step = .ok h' ∧ errJac false n pm h' [] [] = .ok (some v) ∧ v.1 < E

theorem refineTry_spec {dsysv : List K → List K → Int × List K} (hd : KeepsSize dsysv) {n : Nat} {pm : List (PMatch K)} (hn : n ≤ pm.length)
    {N : Nat} {jt : List K} (hjt : jt.length = 18 * N) (h : M3 K) (E : K) : ∀ (fuel tries : Nat) (A jte : List K) (lambda : K),
    41 - tries = fuel → A.length = 81 → jte.length = 9 →
      refineTry dsysv n pm N jt A h E jte lambda tries = .fatal ∨
      ∃ step lambda' tries', refineTry dsysv n pm N jt A h E jte lambda tries = .ok (step, lambda', tries') ∧
        Accepted dsysv n pm h E step ∧ tries < tries' ∧ tries' ≤ 40 ∧
        ((∀ A b, (dsysv A b).1 ≠ 0 → (dsysv A b).2 = b) → step = jte) := by
  intro fuel
  induction fuel with
  | zero =>
    intro tries A jte lambda hf hA hj
    left
    obtain ⟨A', e, hA', -⟩ := c105_normal_partial (n := 9) (m := 2 * N) (jt := jt) (A := A) lambda (by omega) hA
    rw [refineTry, e, Res.ok_bind]
    simp only
    by_cases hs : (dsymSolver dsysv A' jte).1 = true
    · rw [if_pos hs]
    · rw [if_neg hs]
      have hl : (dsymSolver dsysv A' jte).2.length = 9 := hd A' jte hj
      obtain ⟨h', eh⟩ := addStep_ok h hl
      rw [eh, Res.ok_bind]
      rcases errJac_spec false n pm h' [] [] hn (by simp) (by simp) with ⟨ev, -⟩ | ⟨v1, v2, ev, -⟩ <;>
      · rw [ev, Res.ok_bind, dif_pos (by omega)]
  | succ fuel ih =>
    intro tries A jte lambda hf hA hj
    obtain ⟨A', e, hA', -⟩ := c105_normal_partial (n := 9) (m := 2 * N) (jt := jt) (A := A) lambda (by omega) hA
    rw [refineTry, e, Res.ok_bind]
    simp only
    by_cases hs : (dsymSolver dsysv A' jte).1 = true
    · rw [if_pos hs]
      exact Or.inl rfl
    · rw [if_neg hs]
      have hl : (dsymSolver dsysv A' jte).2.length = 9 := hd A' jte hj
      have hun : (dsysv A' jte).1 ≠ 0 := by
        intro h0
        apply hs
        unfold dsymSolver
        simp only [h0, decide_true]
      obtain ⟨h', eh⟩ := addStep_ok h hl
      rw [eh, Res.ok_bind]
      have hfate : ∃ v, errJac false n pm h' [] [] = .ok v := by
        rcases errJac_spec false n pm h' [] [] hn (by simp) (by simp) with ⟨ev, -⟩ | ⟨v1, v2, ev, -⟩
        · exact ⟨_, ev⟩
        · exact ⟨_, ev⟩
      obtain ⟨v, ev⟩ := hfate
      rw [ev, Res.ok_bind]
      by_cases ht : tries + 1 > 40
      · rw [dif_pos ht]
        exact Or.inl rfl
      · rw [dif_neg ht]
        by_cases hlt : meanBelow v E = true
        · rw [if_pos hlt]
          right
          refine ⟨_, _, _, rfl, ⟨hl, ⟨A', jte, hj, hun, rfl⟩, ?_⟩, by omega, by omega, fun hk => hk A' jte hun⟩
          cases v with
          | none => exact absurd hlt (by simp [meanBelow])
          | some v => exact ⟨h', v, eh, ev, by simpa [meanBelow] using hlt⟩
        · rw [if_neg hlt]
          rcases ih (tries + 1) A' (dsymSolver dsysv A' jte).2 (if meanBelow v E = true then lambda / (6 / 5) else lambda * 2) (by omega) (by omega) hl
            with e' | ⟨step, l', t', e', hacc, h1, h2, h3⟩
          · exact Or.inl e'
          · refine Or.inr ⟨step, l', t', e', hacc, by omega, h2, fun hk => ?_⟩
            rw [h3 hk]
            exact hk A' jte hun

/-- C105. A step is taken only if it lowers the mean error, and only from a system that the solver has reported as not solved: a solved
system ends the program. If the solver does not change the right-hand side when it fails, the step is the gradient itself. -/
theorem c105_step {dsysv : List K → List K → Int × List K} (hd : KeepsSize dsysv) {n : Nat} {pm : List (PMatch K)} (hn : n ≤ pm.length)
    {N : Nat} {jt A jte : List K} (hjt : jt.length = 18 * N) (hA : A.length = 81) (hj : jte.length = 9) (h : M3 K) (E lambda : K) (tries : Nat) :
    refineTry dsysv n pm N jt A h E jte lambda tries = .fatal ∨
    ∃ step lambda' tries' A' b h' E', refineTry dsysv n pm N jt A h E jte lambda tries = .ok (step, lambda', tries') ∧
      (dsysv A' b).1 ≠ 0 ∧ step = (dsysv A' b).2 ∧ addStep h step = .ok h' ∧ MeanError h' ((pm.take n).filter PMatch.inlier) E' ∧ E' < E ∧
      tries < tries' ∧ tries' ≤ 40 ∧ ((∀ A b, (dsysv A b).1 ≠ 0 → (dsysv A b).2 = b) → step = jte) := by
  rcases refineTry_spec hd hn hjt h E (41 - tries) tries A jte lambda rfl hA hj with e | ⟨step, l', t', e, hacc, h1, h2, h3⟩
  · exact Or.inl e
  · obtain ⟨A', b, -, hu, hst⟩ := hacc.unsolved
    obtain ⟨h', v, eh, ev, hlt⟩ := hacc.better
    rcases c105_mean false n pm h' [] [] hn (by simp) (by simp) with ⟨e', -⟩ | ⟨E', e1, e2, e', hm⟩
    · rw [ev] at e'
      exact absurd e' (by simp)
    · rw [ev] at e'
      injection e' with e'
      injection e' with e'
      rw [e'] at hlt
      exact Or.inr ⟨step, l', t', A', b, h', E', e, hu, hst, eh, hm, hlt, h1, h2, h3⟩

/-- The state between the steps. -/
structure RefineOk (n : Nat) (pm : List (PMatch K)) (N : Nat) (s : Refine K) : Prop where
  mean : MeanError s.h (inlierList n pm) s.E
  e_len : s.e.length = 2 * N
  jt_len : s.jt.length = 18 * N
  jte_len : s.jte.length = 9
  gradient : ∀ (r : Fin 9), s.jte[r.val]? = some (∑ j : Fin (2 * N), (s.jt[j.val * 9 + r.val]?).getD 0 * (s.e[j.val]?).getD 0)

/-- Two ways to the same mean. -/
theorem errJac_outs {n : Nat} {pm : List (PMatch K)} {h : M3 K} {e0 jt0 : List K} (hn : n ≤ pm.length) {v : K × List K × List K}
    (hv : errJac false n pm h [] [] = .ok (some v)) (he : e0.length = 2 * (inlierList n pm).length)
    (hj : jt0.length = 18 * (inlierList n pm).length) :
    ∃ e jt, errJac true n pm h e0 jt0 = .ok (some (v.1, e, jt)) ∧ e.length = 2 * (inlierList n pm).length ∧
      jt.length = 18 * (inlierList n pm).length := by
  rcases errJac_spec false n pm h [] [] hn (by simp) (by simp) with ⟨e', -⟩ | ⟨e', jt', heq, hne, hfin, -⟩
  · rw [e'] at hv
    exact absurd hv (by simp)
  · rw [heq] at hv
    injection hv with hv
    injection hv with hv
    rcases errJac_spec true n pm h e0 jt0 hn (fun _ => he) (fun _ => hj) with ⟨-, hno⟩ | ⟨e, jt, heq', -, -, hout⟩
    · rcases hno with h0 | ⟨c, hc, hw⟩
      · exact absurd h0 hne
      · exact absurd hw (hfin c hc)
    · obtain ⟨g1, g2⟩ := hout rfl
      refine ⟨e, jt, by rw [heq', ← hv], by rw [g1, residRow_length], by rw [g2, refineRows_length]⟩

theorem refineBody_spec {dsysv : List K → List K → Int × List K} (hd : KeepsSize dsysv) {n : Nat} {pm : List (PMatch K)} (hn : n ≤ pm.length)
    {A : List K} (hA : A.length = 81) (hN : 18 * (inlierList n pm).length ≤ 2147483647) (i : Nat) {s : Refine K}
    (hs : RefineOk n pm (inlierList n pm).length s) :
    refineBody dsysv n pm (inlierList n pm).length A i s = .fatal ∨
    ∃ s', refineBody dsysv n pm (inlierList n pm).length A i s = .ok s' ∧ RefineOk n pm (inlierList n pm).length s' ∧ s'.E < s.E := by
  unfold refineBody
  rcases refineTry_spec hd hn hs.jt_len s.h s.E (41 - s.tries) s.tries A s.jte s.lambda rfl hA hs.jte_len with e | ⟨step, l', t', e, hacc, -, -, -⟩
  · rw [e]
    exact Or.inl rfl
  · obtain ⟨h', v, eh, ev, hlt⟩ := hacc.better
    obtain ⟨e1, jt1, ev', hl1, hl2⟩ := errJac_outs hn ev hs.e_len hs.jt_len
    obtain ⟨g, eg, hg, hgr⟩ := gradient_ok (jte := step) hl2 hl1 hacc.size hN
    rw [e, Res.ok_bind]
    simp only
    rw [eh, Res.ok_bind, ev', Res.ok_bind]
    simp only
    rw [eg, Res.ok_bind]
    refine Or.inr ⟨_, rfl, ⟨?_, hl1, hl2, hg, hgr⟩, hlt⟩
    rcases c105_mean true n pm h' s.e s.jt hn (fun _ => hs.e_len) (fun _ => hs.jt_len) with ⟨e', -⟩ | ⟨E', _, _, e', hm⟩
    · rw [ev'] at e'
      exact absurd e' (by simp)
    · rw [ev'] at e'
      injection e' with e'
      injection e' with e'
      injection e' with e' _
      simp only
      rw [e']
      exact hm

theorem stepsLoop_spec {dsysv : List K → List K → Int × List K} (hd : KeepsSize dsysv) {n : Nat} {pm : List (PMatch K)} (hn : n ≤ pm.length)
    {A : List K} (hA : A.length = 81) (hN : 18 * (inlierList n pm).length ≤ 2147483647) : ∀ (k i : Nat) {s : Refine K}, 10 - i = k →
    RefineOk n pm (inlierList n pm).length s →
    forLoop 10 (refineBody dsysv n pm (inlierList n pm).length A) i s = .fatal ∨
    ∃ s', forLoop 10 (refineBody dsysv n pm (inlierList n pm).length A) i s = .ok s' ∧ RefineOk n pm (inlierList n pm).length s' ∧
      s'.E ≤ s.E ∧ (i < 10 → s'.E < s.E) := by
  intro k
  induction k with
  | zero =>
    intro i s hk hs
    rw [forLoop, if_neg (by omega)]
    exact Or.inr ⟨s, rfl, hs, le_refl _, fun h => absurd h (by omega)⟩
  | succ k ih =>
    intro i s hk hs
    rw [forLoop, if_pos (by omega)]
    rcases refineBody_spec hd hn hA hN i hs with e | ⟨s1, e, h1, hlt⟩
    · rw [e]
      exact Or.inl rfl
    · rw [e, Res.ok_bind]
      rcases ih (i + 1) (by omega) h1 with e' | ⟨s2, e', h2, hle, -⟩
      · exact Or.inl e'
      · exact Or.inr ⟨s2, e', h2, le_trans hle (le_of_lt hlt), fun _ => lt_of_le_of_lt hle hlt⟩

theorem refineStart_spec {n : Nat} {pm : List (PMatch K)} (hn : n ≤ pm.length) (h : M3 K) {e0 jt0 jte0 : List K}
    (he : e0.length = 2 * (inlierList n pm).length) (hj : jt0.length = 18 * (inlierList n pm).length) (hjte : jte0.length = 9)
    (hN : 18 * (inlierList n pm).length ≤ 2147483647) :
    (refineStart n pm h (inlierList n pm).length e0 jt0 jte0 = .fatal ∧ NoMean h (inlierList n pm)) ∨
    ∃ s, refineStart n pm h (inlierList n pm).length e0 jt0 jte0 = .ok s ∧ RefineOk n pm (inlierList n pm).length s ∧ s.h = h ∧ s.lambda = 1 ∧
      s.tries = 0 := by
  unfold refineStart
  rcases c105_mean true n pm h e0 jt0 hn (fun _ => he) (fun _ => hj) with ⟨e', hno⟩ | ⟨E, e, jt, ev, hm⟩
  · rw [e']
    exact Or.inl ⟨rfl, hno⟩
  · obtain ⟨h1, h2, -⟩ := c105_jacobian n pm h e0 jt0 hn he hj ev
    obtain ⟨g, eg, hg, hgr⟩ := gradient_ok (jte := jte0) h2 h1 hjte hN
    rw [ev, Res.ok_bind]
    simp only
    change dmatMul 9 1 (2 * (inlierList n pm).length) jt 9 e (2 * (inlierList n pm).length) jte0 9 = _ at eg
    rw [eg, Res.ok_bind]
    exact Or.inr ⟨_, rfl, ⟨hm, h1, h2, hg, hgr⟩, rfl, rfl, rfl⟩

omit [LinearOrder K] in
/-- C105. Dividing a matrix by its last element does not change where it takes points. -/
theorem c105_scale (h : M3 K) (h8 : h.e8 ≠ 0) (x q : K × K) : Projects (refineScale h).mat x q ↔ Projects h.mat x q := by
  rw [projects_iff, projects_iff]
  simp only [refineScale]
  have e1 : ∀ a b c : K, a / h.e8 * x.1 + b / h.e8 * x.2 + c / h.e8 = (a * x.1 + b * x.2 + c) / h.e8 := by
    intro a b c
    field_simp
  rw [e1, e1, e1, div_ne_zero_iff]
  constructor
  · rintro ⟨⟨hw, -⟩, h1, h2⟩
    refine ⟨hw, ?_, ?_⟩
    · field_simp at h1
      linear_combination h1
    · field_simp at h2
      linear_combination h2
  · rintro ⟨hw, h1, h2⟩
    refine ⟨⟨hw, h8⟩, ?_, ?_⟩
    · rw [h1]
      ring
    · rw [h2]
      ring

omit [Field K] [LinearOrder K] in
theorem mark_total (test : PMatch K → Bool) : ∀ (n : Nat) (pm : List (PMatch K)) (acc : Nat), n ≤ pm.length → ∃ r, markLoop test n pm acc = .ok r
  | 0, pm, acc, _ => ⟨_, by rw [markLoop]⟩
  | n + 1, [], acc, h => absurd h (by simp)
  | n + 1, c :: cs, acc, h => by
    obtain ⟨r, e⟩ := mark_total test n cs (if test c then acc + 1 else acc) (by simpa using h)
    rw [markLoop, e, Res.ok_bind]
    exact ⟨_, rfl⟩

/-- C105. The refinement ends with an error, or with a homography whose mean squared error over the given inliers is smaller than it was;
the matches are marked anew with it. There is no undefined behaviour. -/
theorem c105_refine {dsysv : List K → List K → Int × List K} (hd : KeepsSize dsysv) {n : Nat} {pm : List (PMatch K)} (hn : n ≤ pm.length)
    (h : M3 K) {e0 jt0 jte0 A : List K} (he : e0.length = 2 * ((pm.take n).filter PMatch.inlier).length)
    (hj : jt0.length = 18 * ((pm.take n).filter PMatch.inlier).length) (hjte : jte0.length = 9) (hA : A.length = 81)
    (hN : 18 * ((pm.take n).filter PMatch.inlier).length ≤ 2147483647) :
    refineHomography dsysv n pm h e0 jt0 jte0 A = .fatal ∨
    ∃ h' pm' k E E', refineHomography dsysv n pm h e0 jt0 jte0 A = .ok (h', pm', k) ∧
      MeanError (refineScale h) ((pm.take n).filter PMatch.inlier) E ∧ MeanError h' ((pm.take n).filter PMatch.inlier) E' ∧ E' < E ∧
      markInliers h' n pm 3 = .ok (pm', k) := by
  unfold refineHomography
  by_cases h8 : h.e8 = 0
  · rw [if_pos h8]
    exact Or.inl rfl
  · rw [if_neg h8, countInliers_ok n pm 0 hn, Res.ok_bind, Nat.zero_add]
    have hin : (pm.take n).filter PMatch.inlier = inlierList n pm := rfl
    rw [hin] at *
    rcases refineStart_spec hn (refineScale h) he hj hjte hN with ⟨e, -⟩ | ⟨s, e, hs, hh, -, -⟩
    · rw [e]
      exact Or.inl rfl
    · rw [e, Res.ok_bind]
      rcases stepsLoop_spec hd hn hA hN 10 0 rfl hs with e' | ⟨s', e', hs', -, hlt⟩
      · rw [e']
        exact Or.inl rfl
      · rw [e', Res.ok_bind]
        obtain ⟨r, er⟩ := mark_total (fun c => closeTo (transferFwd s'.h c.x).1 c.xp ((3 : K) * 3)) n pm 0 hn
        have er' : markInliers s'.h n pm 3 = .ok r := by
          unfold markInliers
          rw [Int.toNat_natCast]
          exact er
        rw [er', Res.ok_bind]
        exact Or.inr ⟨s'.h, r.1, r.2, s.E, s'.E, rfl, by rw [← hh]; exact hs.mean, hs'.mean, hlt (by omega), er'⟩

/-- C105. With a solver that solves the systems it is given, the refinement always ends with an error. -/
theorem c105_solved {dsysv : List K → List K → Int × List K} (hsolve : ∀ A b, (dsysv A b).1 = 0) {n : Nat} {pm : List (PMatch K)}
    (hn : n ≤ pm.length) (h : M3 K) {e0 jt0 jte0 A : List K} (he : e0.length = 2 * ((pm.take n).filter PMatch.inlier).length)
    (hj : jt0.length = 18 * ((pm.take n).filter PMatch.inlier).length) (hjte : jte0.length = 9) (hA : A.length = 81)
    (hN : 18 * ((pm.take n).filter PMatch.inlier).length ≤ 2147483647) :
    refineHomography dsysv n pm h e0 jt0 jte0 A = .fatal := by
  unfold refineHomography
  by_cases h8 : h.e8 = 0
  · rw [if_pos h8]
  · rw [if_neg h8, countInliers_ok n pm 0 hn, Res.ok_bind, Nat.zero_add]
    have hin : (pm.take n).filter PMatch.inlier = inlierList n pm := rfl
    rw [hin] at *
    rcases refineStart_spec hn (refineScale h) he hj hjte hN with ⟨e, -⟩ | ⟨s, e, hs, hh, -, -⟩
    · rw [e]
      rfl
    · rw [e, Res.ok_bind]
      obtain ⟨A', eA, -, -⟩ := c105_normal_partial (n := 9) (m := 2 * (inlierList n pm).length) (jt := s.jt) (A := A) s.lambda
        (by rw [hs.jt_len]; omega) hA
      have : refineBody dsysv n pm (inlierList n pm).length A 0 s = .fatal := by
        unfold refineBody
        rw [refineTry, eA, Res.ok_bind]
        simp only
        rw [if_pos (by simp [dsymSolver, hsolve])]
        rfl
      rw [forLoop, if_pos (by omega), this]
      rfl

/-- C105. Without a mean at the start (no inliers, or a point that is taken to infinity) the refinement ends with an error. -/
theorem c105_no_mean {dsysv : List K → List K → Int × List K} {n : Nat} {pm : List (PMatch K)} (hn : n ≤ pm.length) (h : M3 K)
    {e0 jt0 jte0 A : List K} (he : e0.length = 2 * ((pm.take n).filter PMatch.inlier).length)
    (hj : jt0.length = 18 * ((pm.take n).filter PMatch.inlier).length) (hjte : jte0.length = 9)
    (hN : 18 * ((pm.take n).filter PMatch.inlier).length ≤ 2147483647) (hno : NoMean (refineScale h) ((pm.take n).filter PMatch.inlier)) :
    refineHomography dsysv n pm h e0 jt0 jte0 A = .fatal := by
  unfold refineHomography
  by_cases h8 : h.e8 = 0
  · rw [if_pos h8]
  · rw [if_neg h8, countInliers_ok n pm 0 hn, Res.ok_bind, Nat.zero_add]
    have hin : (pm.take n).filter PMatch.inlier = inlierList n pm := rfl
    rw [hin] at *
    rcases refineStart_spec hn (refineScale h) he hj hjte hN with ⟨e, -⟩ | ⟨s, e, hs, hh, -, -⟩
    · rw [e]
      rfl
    · exfalso
      obtain ⟨hne, rs, hf, -⟩ := hs.mean
      rw [hh] at hf
      rcases hno with h0 | ⟨c, hc, hp⟩
      · exact hne h0
      · obtain ⟨i, hi⟩ := List.getElem?_of_mem hc
        obtain ⟨hi1, hi2⟩ := List.getElem?_eq_some_iff.mp hi
        have := List.Forall₂.get hf hi1 (by rw [← hf.length_eq]; exact hi1)
        obtain ⟨q, hq, -⟩ := this
        rw [List.get_eq_getElem] at hq
        exact hp q (hi2 ▸ hq)

end

/-! ## Examples -/

/-- A match that the identity misses by (4, 2). -/
def refineMatch : PMatch Rat := ⟨(0, 0), (4, 2), 0, 1, 1, 0, 0, true⟩

/-- A match that is not an inlier. -/
def refineOutlier : PMatch Rat := ⟨(1, 1), (40, 2), 0, 1, 1, 0, 0, false⟩

/-- A solver that reports a failure and leaves half of the translation. -/
def halfSolver (_ b : List Rat) : Int × List Rat := (3, [0, 0, 0, 0, 0, 0, (b[6]?).getD 0 / 2, (b[7]?).getD 0 / 2, 0])

example : KeepsSize halfSolver := fun _ _ _ => rfl

example : (match refineHomography halfSolver 2 [refineMatch, refineOutlier] ⟨2, 0, 0, 0, 2, 0, 0, 0, 2⟩ [0, 0] (List.replicate 18 0)
      (List.replicate 9 0) (List.replicate 81 0) with
    | .ok (h, pm, k) => decide (h = ⟨1, 0, 0, 0, 1, 0, 4 - 4 / 1024, 2 - 2 / 1024, 1⟩ ∧ pm.map PMatch.inlier = [true, false] ∧ k = 1)
    | _ => false) = true := by decide +kernel

example : (match errJac true 1 [refineMatch] ⟨1, 0, 0, 0, 1, 0, 0, 0, 1⟩ [0, 0] (List.replicate 18 0) with
    | .ok (some (E, e, _)) => decide (E = 20 ∧ e = [4, 2])
    | _ => false) = true := by decide +kernel

end Nx
