import Verif.Model.Ledger

/-!
# Ownership of blocks
-/

namespace Nx

/-- The allocated blocks are exactly those of `l`, each once. -/
structure Owns (σ : Mem) (l : List Nat) : Prop where
  same : ∀ q, σ.live.count q = l.count q
  once : ∀ q, σ.live.count q ≤ 1
  fresh : ∀ q ∈ σ.live, q < σ.next

theorem Owns.swap {σ : Mem} {l l' : List Nat} (h : Owns σ l) (e : ∀ q, l.count q = l'.count q) : Owns σ l' :=
  ⟨fun q => (h.same q).trans (e q), h.once, h.fresh⟩

theorem Owns.mem {σ : Mem} {l : List Nat} (h : Owns σ l) {p : Nat} (hp : p ∈ l) : p ∈ σ.live := by
  rw [← List.count_pos_iff, h.same, List.count_pos_iff]
  exact hp

theorem alloc_owns {σ : Mem} {l : List Nat} (h : Owns σ l) : Owns (memAlloc σ).1 ((memAlloc σ).2 :: l) := by
  refine ⟨?_, ?_, ?_⟩
  · intro q
    simp only [memAlloc, List.count_cons, h.same]
  · intro q
    simp only [memAlloc, List.count_cons]
    split
    · rename_i hq
      have : σ.live.count q = 0 := by
        rw [List.count_eq_zero]
        intro hm
        have := h.fresh q hm
        simp at hq
        omega
      omega
    · exact h.once q
  · intro q hq
    simp only [memAlloc, List.mem_cons] at hq ⊢
    rcases hq with rfl | hq
    · omega
    · have := h.fresh q hq
      omega

theorem free_owns {σ : Mem} {l : List Nat} {p : Nat} (h : Owns σ (p :: l)) :
    ∃ σ', memFree σ (some p) = .ok σ' ∧ Owns σ' l := by
  have hp : p ∈ σ.live := h.mem (by simp)
  refine ⟨_, by rw [memFree, if_pos hp], ?_, ?_, ?_⟩
  · intro q
    have := h.same q
    rw [List.count_cons] at this
    rw [List.count_erase, this]
    by_cases hpq : p = q
    · subst hpq
      simp
    · simp [hpq]
  · intro q
    have := h.once q
    rw [List.count_erase]
    omega
  · intro q hq
    exact h.fresh q (List.mem_of_mem_erase hq)

theorem freeOpt_owns {σ : Mem} {l : List Nat} {d : Option Nat} (h : Owns σ (d.toList ++ l)) :
    ∃ σ', memFree σ d = .ok σ' ∧ Owns σ' l := by
  cases d with
  | none => exact ⟨σ, rfl, by simpa using h⟩
  | some p => exact free_owns (by simpa using h)

theorem use_ok {σ : Mem} {l : List Nat} (h : Owns σ l) {p : Nat} (hp : p ∈ l) : memUse σ p = .ok () := by
  rw [memUse, if_pos (h.mem hp)]

theorem dup_owns {σ : Mem} {l : List Nat} {src : MSrc} (h : Owns σ l) (hs : ∀ p, src = .ptr p → p ∈ l) :
    ∃ σ' d', memDup σ src = .ok (σ', d') ∧ Owns σ' (d'.toList ++ l) := by
  cases src with
  | null => exact ⟨σ, none, rfl, by simpa using h⟩
  | ext => exact ⟨_, _, rfl, by simpa using alloc_owns h⟩
  | ptr p =>
    refine ⟨(memAlloc σ).1, some (memAlloc σ).2, ?_, alloc_owns h⟩
    rw [memDup, use_ok h (hs p rfl)]
    rfl

theorem redup_owns {σ : Mem} {l : List Nat} {d : Option Nat} {src : MSrc} (h : Owns σ (d.toList ++ l))
    (hs : ∀ p, src = .ptr p → p ∈ l) :
    ∃ σ' d', memRedup σ d src = .ok (σ', d') ∧ Owns σ' (d'.toList ++ l) := by
  obtain ⟨σ1, e1, h1⟩ := freeOpt_owns h
  rw [memRedup, e1, Res.ok_bind]
  exact dup_owns h1 hs

theorem srcOf_mem {d : Option Nat} {l : List Nat} (h : ∀ q ∈ d.toList, q ∈ l) : ∀ p, MSrc.of d = .ptr p → p ∈ l := by
  intro p hp
  cases d with
  | none => cases hp
  | some q =>
    cases hp
    exact h p (by simp)

theorem ext_mem {l : List Nat} : ∀ p, MSrc.ext = .ptr p → p ∈ l := by
  intro p hp
  cases hp

end Nx
