import Verif.Lemmas.MemncpyMulti

/-!
# C08: scattered copy
-/

namespace Nx

/-- A caller's loop: one call of `nx_memncpy_multi` per requested chunk size,
starting from the cursor `(so, off)`. Collects the chunks delivered. -/
def copyChunks (tail : Option Nat) (srcs : List Bytes) (so off : Nat) : List Nat → Res (List Bytes)
  | [] => .ok []
  | n :: ns => do
    let (c, so', off') ← memncpyMulti tail srcs n so off
    let cs ← copyChunks tail srcs so' off' ns
    pure (c :: cs)

/-- Specification: cut a byte string into consecutive chunks of the given sizes
(a chunk is short only when the string is exhausted). -/
def chunksOf (s : Bytes) : List Nat → List Bytes
  | [] => []
  | n :: ns => s.take n :: chunksOf (s.drop n) ns

/-- C08: with a readable element behind the length array (whatever its value),
any sequence of calls delivers the consecutive chunks of the concatenation of
the sources, never reading outside a source. Missing: without that readable
element a call after the end is undefined (`c08_call_at_end_ub`). -/
theorem c08_chunks_readable_partial (v : Nat) (srcs : List Bytes) (h0 : srcs ≠ []) (ns : List Nat) :
    copyChunks (some v) srcs 0 0 ns = .ok (chunksOf srcs.flatten ns) := by
  have gen : ∀ ns so off, CursorOk srcs so off →
      copyChunks (some v) srcs so off ns = .ok (chunksOf (undelivered srcs so off) ns) := by
    intro ns
    induction ns with
    | nil => intro so off _; rfl
    | cons n ns ih =>
      intro so off hc
      obtain ⟨so', off', e1, e2, e3⟩ := memncpyMulti_spec (some v) srcs n so off h0 hc (Or.inr (by simp))
      simp [copyChunks, e1, ih so' off' e2, e3, chunksOf]
  rw [gen ns 0 0 (cursorOk_zero srcs), undelivered_zero]

/-- C08: without any assumption on the memory behind the arrays, as long as every
call is made while bytes are still left. -/
theorem c08_chunks_partial (srcs : List Bytes) (ns : List Nat)
    (h : ∀ k, k < ns.length → (ns.take k).sum < srcs.flatten.length) :
    copyChunks none srcs 0 0 ns = .ok (chunksOf srcs.flatten ns) := by
  have gen : ∀ ns so off, CursorOk srcs so off →
      (∀ k, k < ns.length → (ns.take k).sum < (undelivered srcs so off).length) →
      copyChunks none srcs so off ns = .ok (chunksOf (undelivered srcs so off) ns) := by
    intro ns
    induction ns with
    | nil => intro so off _ _; rfl
    | cons n ns ih =>
      intro so off hc hk
      have h1 := hk 0 (by simp)
      have hso : so < srcs.length := by
        rcases hc with ⟨h, _⟩ | ⟨rfl, rfl⟩
        · exact h
        · simp [undelivered] at h1
      obtain ⟨so', off', e1, e2, e3⟩ := memncpyMulti_spec none srcs n so off
        (by rintro rfl; simp at hso) hc (Or.inl hso)
      have hrest : ∀ k, k < ns.length → (ns.take k).sum < (undelivered srcs so' off').length := by
        intro k hlt
        have := hk (k + 1) (by simpa using hlt)
        simp only [List.take_succ_cons, List.sum_cons] at this
        rw [e3, List.length_drop]
        omega
      simp [copyChunks, e1, ih so' off' e2 hrest, e3, chunksOf]
  rw [gen ns 0 0 (cursorOk_zero srcs) (by rwa [undelivered_zero]), undelivered_zero]

/-- C08: one call copies `min n (bytes left)` bytes, the next ones of the
concatenation; without any assumption on memory behind the arrays as long as the
cursor has not passed the last source. -/
theorem c08_single_call (srcs : List Bytes) (n so off : Nat) (hso : so < srcs.length)
    (ho : off ≤ srcs[so].length) :
    ∃ so' off', memncpyMulti none srcs n so off =
      .ok (((srcs.drop so).flatten.drop off).take n, so', off') ∧
      ((srcs.drop so').flatten).drop off' = ((srcs.drop so).flatten.drop off).drop n := by
  obtain ⟨so', off', e1, _, e3⟩ := memncpyMulti_spec none srcs n so off
    (by rintro rfl; simp at hso) (Or.inl ⟨hso, ho⟩) (Or.inl hso)
  exact ⟨so', off', e1, e3⟩

/-- C08, finding: called again after everything was delivered, the function reads
one element past the length array. -/
theorem c08_call_at_end_ub (srcs : List Bytes) (h0 : srcs ≠ []) (n : Nat) :
    memncpyMulti none srcs n srcs.length 0 = .ub := by
  have hne : ¬ srcs.length = 0 := by
    intro h; exact h0 (List.length_eq_zero_iff.1 h)
  simp [memncpyMulti, hne]

example : copyChunks (some 7) [[1, 2, 3], [], [4, 5]] 0 0 [2, 2, 9, 1] =
    .ok [[1, 2], [3, 4], [5], []] := by decide +kernel

example : ∀ k, k < [2, 2, 9].length →
    ([2, 2, 9].take k).sum < ([[1, 2, 3], [], [4, 5]] : List Bytes).flatten.length := by decide

end Nx
