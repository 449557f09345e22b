import Mathlib.Algebra.Order.Field.Basic
import Mathlib.Analysis.Real.Sqrt
import Verif.Lemmas.Dlt

/-!
# Lemmas on marking inliers and transfer errors
-/

namespace Nx

section
variable {K : Type} [Field K] [LinearOrder K]

/-- The array after the marking loop. -/
def marked (test : PMatch K → Bool) (corr : List (PMatch K)) : List (PMatch K) :=
  corr.map fun c => { c with inlier := test c }

omit [Field K] [LinearOrder K] in
theorem markLoop_ok (test : PMatch K → Bool) : ∀ (n : Nat) (corr : List (PMatch K)) (acc : Nat), n ≤ corr.length →
    markLoop test n corr acc
      = .ok (marked test (corr.take n) ++ corr.drop n, acc + ((corr.take n).filter test).length)
  | 0, corr, acc, _ => by simp [markLoop, marked]
  | n + 1, [], _, h => by simp at h
  | n + 1, c :: cs, acc, h => by
    simp only [markLoop]
    rw [markLoop_ok test n cs _ (by simpa using h), List.take_succ_cons, List.filter_cons]
    by_cases ht : test c = true
    · simp only [ht, if_true, Res.ok_bind, Res.pure_eq, Res.ok.injEq, Prod.mk.injEq]
      refine ⟨by simp [marked, ht], by simp; omega⟩
    · simp only [ht, Res.ok_bind, Res.pure_eq, Res.ok.injEq, Prod.mk.injEq]
      refine ⟨by simp [marked, ht], by simp⟩

omit [Field K] [LinearOrder K] in
theorem marked_filter_length (test : PMatch K → Bool) (corr : List (PMatch K)) :
    ((marked test corr).filter fun c => c.inlier).length = (corr.filter test).length := by
  induction corr with
  | nil => rfl
  | cons c cs ih =>
    simp only [marked, List.map_cons, List.filter_cons] at *
    split <;> simp_all

end

/-- The sum and the number of the errors of the inliers. -/
theorem errorLoop_ok {K : Type} [Field K] [LinearOrder K] (sqrt : K → K)
    (dist : PMatch K → Option (K × K) × (K × K)) (d : PMatch K → K) :
    ∀ (n : Nat) (corr : List (PMatch K)) (e : K) (k : Nat), n ≤ corr.length →
    (∀ c ∈ (corr.take n).filter (fun c => c.inlier), ∃ q, (dist c).1 = some q ∧ d c
      = sqrt ((q.1 - (dist c).2.1) * (q.1 - (dist c).2.1) + (q.2 - (dist c).2.2) * (q.2 - (dist c).2.2))) →
    errorLoop sqrt dist n corr (some e) k
      = .ok (some (e + (((corr.take n).filter fun c => c.inlier).map d).sum),
        k + ((corr.take n).filter fun c => c.inlier).length)
  | 0, corr, e, k, _, _ => by simp [errorLoop]
  | n + 1, [], _, _, h, _ => by simp at h
  | n + 1, c :: cs, e, k, h, hd => by
    simp only [errorLoop]
    rw [List.take_succ_cons, List.filter_cons] at *
    by_cases hc : c.inlier = true
    · simp only [hc, if_true] at hd ⊢
      obtain ⟨q, hq, hdc⟩ := hd c (List.mem_cons_self ..)
      rw [hq]
      simp only [Option.map_some, Option.bind_some]
      rw [← hdc, errorLoop_ok sqrt dist d n cs _ _ (by simpa using h) fun c' h' => hd c' (List.mem_cons_of_mem _ h')]
      simp only [List.map_cons, List.sum_cons, List.length_cons, Res.ok.injEq, Prod.mk.injEq, Option.some.injEq]
      exact ⟨by ring, by omega⟩
    · simp only [hc] at hd ⊢
      exact errorLoop_ok sqrt dist d n cs _ _ (by simpa using h) hd

/-- An inlier without an image makes the result undefined. -/
theorem errorLoop_none {K : Type} [Field K] [LinearOrder K] (sqrt : K → K)
    (dist : PMatch K → Option (K × K) × (K × K)) :
    ∀ (n : Nat) (corr : List (PMatch K)) (e : Option K) (k : Nat), n ≤ corr.length →
    (e = none ∨ ∃ c ∈ (corr.take n).filter (fun c => c.inlier), (dist c).1 = none) →
    errorLoop sqrt dist n corr e k = .ok (none, k + ((corr.take n).filter fun c => c.inlier).length)
  | 0, corr, e, k, _, h => by
    rcases h with rfl | ⟨c, hc, _⟩
    · simp [errorLoop]
    · simp at hc
  | n + 1, [], _, _, h, _ => by simp at h
  | n + 1, c :: cs, e, k, h, hd => by
    simp only [errorLoop]
    rw [List.take_succ_cons, List.filter_cons] at *
    by_cases hc : c.inlier = true
    · simp only [hc, if_true] at hd ⊢
      rw [errorLoop_none sqrt dist n cs _ _ (by simpa using h)]
      · simp
        omega
      · rcases hd with rfl | ⟨c', hm, hn⟩
        · exact Or.inl rfl
        · rcases List.mem_cons.mp hm with rfl | hm
          · left
            rw [hn]
            cases e <;> rfl
          · exact Or.inr ⟨c', hm, hn⟩
    · simp only [hc] at hd ⊢
      exact errorLoop_none sqrt dist n cs _ _ (by simpa using h) hd

theorem sum_nonneg_zero {α : Type} (d : α → ℝ) : ∀ l : List α, (∀ c ∈ l, 0 ≤ d c) →
    0 ≤ (l.map d).sum ∧ ((l.map d).sum = 0 ↔ ∀ c ∈ l, d c = 0)
  | [], _ => by simp
  | c :: cs, h => by
    obtain ⟨h1, h2⟩ := sum_nonneg_zero d cs fun x hx => h x (List.mem_cons_of_mem _ hx)
    have h0 := h c (List.mem_cons_self ..)
    simp only [List.map_cons, List.sum_cons, List.forall_mem_cons]
    refine ⟨by linarith, ?_⟩
    constructor
    · intro he
      exact ⟨by linarith, h2.mp (by linarith)⟩
    · rintro ⟨ha, hb⟩
      rw [ha, h2.mpr hb, add_zero]

end Nx
