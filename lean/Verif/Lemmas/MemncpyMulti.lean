import Verif.Model.MemncpyMulti

/-!
# Helper lemmas for `nx_memncpy_multi`
-/

namespace Nx

/-- Bytes not yet delivered at a cursor. -/
def undelivered (srcs : List Bytes) (so off : Nat) : Bytes := ((srcs.drop so).flatten).drop off

/-- Cursors that the function itself produces. -/
def CursorOk (srcs : List Bytes) (so off : Nat) : Prop :=
  (∃ h : so < srcs.length, off ≤ srcs[so].length) ∨ (so = srcs.length ∧ off = 0)

theorem undelivered_step (srcs : List Bytes) (so off : Nat) (h : so < srcs.length)
    (ho : off ≤ srcs[so].length) :
    undelivered srcs so off = srcs[so].drop off ++ undelivered srcs (so + 1) 0 := by
  unfold undelivered
  rw [List.drop_eq_getElem_cons h, List.flatten_cons, List.drop_append_of_le_length ho]
  simp

theorem memncpyLoop_spec (srcs : List Bytes) (n so off : Nat) (acc : Bytes)
    (hc : CursorOk srcs so off) :
    ∃ so' off', memncpyLoop srcs n so off acc =
        .ok (acc ++ (undelivered srcs so off).take n, so', off') ∧
      CursorOk srcs so' off' ∧
      undelivered srcs so' off' = (undelivered srcs so off).drop n := by
  induction hk : srcs.length - so generalizing n so off acc with
  | zero =>
    have hso : so = srcs.length ∧ off = 0 := by
      rcases hc with ⟨h, _⟩ | h
      · omega
      · exact h
    obtain ⟨rfl, rfl⟩ := hso
    refine ⟨srcs.length, 0, ?_, hc, ?_⟩
    · rw [memncpyLoop, dif_neg (by omega)]
      simp [undelivered]
    · simp [undelivered]
  | succ k ih =>
    have hso : so < srcs.length := by omega
    have ho : off ≤ srcs[so].length := by
      rcases hc with ⟨_, h⟩ | h
      · exact h
      · omega
    rw [memncpyLoop]
    by_cases hn : 0 < n
    · rw [dif_pos ⟨hn, hso⟩]
      have hng : ¬ off > srcs[so].length := by omega
      simp only [hng, if_false]
      by_cases hl : srcs[so].length - off > n
      · rw [if_pos hl]
        refine ⟨so, off + n, ?_, Or.inl ⟨hso, by omega⟩, ?_⟩
        · rw [undelivered_step _ _ _ hso ho, List.take_append_of_le_length (by simp; omega)]
        · unfold undelivered
          rw [List.drop_drop]
      · rw [if_neg hl]
        have hcn : CursorOk srcs (so + 1) 0 := by
          by_cases h2 : so + 1 < srcs.length
          · exact Or.inl ⟨h2, Nat.zero_le _⟩
          · exact Or.inr ⟨by omega, rfl⟩
        obtain ⟨so', off', e1, e2, e3⟩ :=
          ih (n - (srcs[so].length - off)) (so + 1) 0 (acc ++ srcs[so].drop off) hcn (by omega)
        refine ⟨so', off', ?_, e2, ?_⟩
        · rw [e1, undelivered_step _ _ _ hso ho, List.take_append, List.append_assoc]
          congr 4
          · rw [List.take_of_length_le]
            simp; omega
          · simp
        · rw [e3, undelivered_step _ _ _ hso ho, List.drop_append]
          have : List.drop n (srcs[so].drop off) = [] := by
            rw [List.drop_eq_nil_iff]; simp; omega
          rw [this]
          simp
    · rw [dif_neg (by omega)]
      have : n = 0 := by omega
      subst this
      exact ⟨so, off, by simp, hc, by simp⟩

theorem memncpyMulti_spec (tail : Option Nat) (srcs : List Bytes) (n so off : Nat)
    (h0 : srcs ≠ []) (hc : CursorOk srcs so off) (ht : so < srcs.length ∨ tail ≠ none) :
    ∃ so' off', memncpyMulti tail srcs n so off =
        .ok ((undelivered srcs so off).take n, so', off') ∧
      CursorOk srcs so' off' ∧
      undelivered srcs so' off' = (undelivered srcs so off).drop n := by
  have hne : ¬ srcs.length = 0 := by
    intro h; exact h0 (List.length_eq_zero_iff.1 h)
  obtain ⟨so', off', e1, e2, e3⟩ := memncpyLoop_spec srcs n so off [] hc
  refine ⟨so', off', ?_, e2, e3⟩
  unfold memncpyMulti
  rw [if_neg hne]
  rcases hc with ⟨h, ho⟩ | ⟨rfl, rfl⟩
  · have hng : ¬ off > srcs[so].length := by omega
    simp only [h, dif_pos, hng, if_false]
    simpa using e1
  · obtain ⟨v, rfl⟩ : ∃ v, tail = some v := by
      cases tail with
      | none => simp at ht
      | some v => exact ⟨v, rfl⟩
    simp only [Nat.lt_irrefl, dif_neg, not_false_eq_true, if_true]
    have : ¬ (0 > v) := by omega
    simp only [this, if_false]
    simpa using e1

theorem cursorOk_zero (srcs : List Bytes) : CursorOk srcs 0 0 := by
  by_cases h : 0 < srcs.length
  · exact Or.inl ⟨h, Nat.zero_le _⟩
  · exact Or.inr ⟨by omega, rfl⟩

theorem undelivered_zero (srcs : List Bytes) : undelivered srcs 0 0 = srcs.flatten := by
  simp [undelivered]

/-- Cursors after a call: inside a source, or at the start of one. -/
def CursorStrict (srcs : List Bytes) (so off : Nat) : Prop :=
  off = 0 ∨ ∃ h : so < srcs.length, off < srcs[so].length

theorem memncpyLoop_strict (srcs : List Bytes) (n so off : Nat) (acc : Bytes)
    (hc : CursorOk srcs so off) (hs : CursorStrict srcs so off) {c so' off'}
    (h : memncpyLoop srcs n so off acc = .ok (c, so', off')) : CursorStrict srcs so' off' := by
  induction hk : srcs.length - so generalizing n so off acc with
  | zero =>
    rw [memncpyLoop, dif_neg (by omega)] at h
    cases h
    exact hs
  | succ k ih =>
    rw [memncpyLoop] at h
    by_cases hn : 0 < n ∧ so < srcs.length
    · rw [dif_pos hn] at h
      have ho : off ≤ srcs[so].length := by
        rcases hc with ⟨_, h⟩ | h
        · exact h
        · omega
      have hng : ¬ off > srcs[so].length := by omega
      simp only [hng, if_false] at h
      by_cases hl : srcs[so].length - off > n
      · rw [if_pos hl] at h
        cases h
        exact Or.inr ⟨hn.2, by omega⟩
      · rw [if_neg hl] at h
        refine ih _ (so + 1) 0 _ ?_ (Or.inl rfl) h (by omega)
        by_cases h2 : so + 1 < srcs.length
        · exact Or.inl ⟨h2, Nat.zero_le _⟩
        · exact Or.inr ⟨by omega, rfl⟩
    · rw [dif_neg hn] at h
      cases h
      exact hs

theorem memncpyLoop_end (srcs : List Bytes) (n so off : Nat) (acc : Bytes)
    (hc : CursorOk srcs so off) (hn : n ≤ (undelivered srcs so off).length) {c so' off'}
    (h : memncpyLoop srcs n so off acc = .ok (c, so', off')) (he : so' = srcs.length) :
    so = srcs.length ∨ ∃ l, srcs.getLast? = some l ∧ l ≠ [] := by
  induction hk : srcs.length - so generalizing n so off acc with
  | zero =>
    rcases hc with ⟨h, _⟩ | h
    · omega
    · exact Or.inl h.1
  | succ k ih =>
    rw [memncpyLoop] at h
    by_cases hnn : 0 < n ∧ so < srcs.length
    · rw [dif_pos hnn] at h
      have ho : off ≤ srcs[so].length := by
        rcases hc with ⟨_, h⟩ | h
        · exact h
        · omega
      have hng : ¬ off > srcs[so].length := by omega
      simp only [hng, if_false] at h
      by_cases hl : srcs[so].length - off > n
      · rw [if_pos hl] at h
        cases h
        exact Or.inl he
      · rw [if_neg hl] at h
        have hu := undelivered_step srcs so off hnn.2 ho
        have hul : (undelivered srcs so off).length =
            srcs[so].length - off + (undelivered srcs (so + 1) 0).length := by
          rw [hu]; simp
        have hc1 : CursorOk srcs (so + 1) 0 := by
          by_cases h2 : so + 1 < srcs.length
          · exact Or.inl ⟨h2, Nat.zero_le _⟩
          · exact Or.inr ⟨by omega, rfl⟩
        rcases ih _ (so + 1) 0 _ hc1 (by omega) h (by omega) with h1 | h1
        · right
          refine ⟨srcs[so], ?_, ?_⟩
          · have e : srcs.length - 1 = so := by omega
            rw [List.getLast?_eq_getElem?, e, List.getElem?_eq_getElem hnn.2]
          · intro hnil
            have : (undelivered srcs (so + 1) 0).length = 0 := by
              rw [h1]; simp [undelivered]
            rw [hnil] at hul
            simp at hul
            omega
        · exact Or.inr h1
    · rw [dif_neg hnn] at h
      cases h
      exact Or.inl he

/-- A strict cursor with nothing left, the last source being non-empty, is the end cursor. -/
theorem cursor_at_end (srcs : List Bytes) (so off : Nat) (hc : CursorOk srcs so off)
    (hs : CursorStrict srcs so off) (hu : undelivered srcs so off = [])
    (hl : ∃ l, srcs.getLast? = some l ∧ l ≠ []) : so = srcs.length ∧ off = 0 := by
  rcases hc with ⟨h, ho⟩ | h
  · exfalso
    obtain ⟨l, hl1, hl2⟩ := hl
    rw [undelivered_step srcs so off h ho, List.append_eq_nil_iff] at hu
    obtain ⟨h1, h2⟩ := hu
    by_cases hlast : so + 1 = srcs.length
    · have hsl : srcs[so] = l := by
        have e : srcs.length - 1 = so := by omega
        rw [List.getLast?_eq_getElem?, e, List.getElem?_eq_getElem h] at hl1
        exact Option.some.inj hl1
      have := List.length_pos_iff.2 hl2
      rw [List.drop_eq_nil_iff, hsl] at h1
      rcases hs with rfl | ⟨_, hs⟩
      · omega
      · rw [hsl] at hs; omega
    · have hm : l ∈ srcs.drop (so + 1) := by
        rw [List.mem_iff_getElem]
        refine ⟨srcs.length - 1 - (so + 1), by simp; omega, ?_⟩
        rw [List.getLast?_eq_getElem?] at hl1
        have hlt : srcs.length - 1 < srcs.length := by omega
        rw [List.getElem?_eq_getElem hlt] at hl1
        simp only [List.getElem_drop]
        have e : so + 1 + (srcs.length - 1 - (so + 1)) = srcs.length - 1 := by omega
        simp only [e]
        exact Option.some.inj hl1
      simp only [undelivered, List.drop_zero, List.flatten_eq_nil_iff] at h2
      exact hl2 (h2 l hm)
  · exact h

end Nx
