import Verif.Model.StrIO

/-!
# Helper lemmas for binary string serialization
-/

namespace Nx

theorem strread_ok (alloc size : Nat) (s rest : Bytes) (hs : s.length + 1 < 18446744073709551616)
    (ha : size ≤ alloc) :
    ∃ a, strread alloc size (strwrite s ++ rest) =
      .ok { ret := 0, alloc := a, content := s, rest := rest } ∧ s.length < a := by
  have h8 : (leBytes 8 s.length).length = 8 := leBytes_length _ _
  unfold strread strwrite
  rw [List.append_assoc, fread1_append _ h8]
  have hv : leVal (leBytes 8 s.length) = s.length := leVal_leBytes_of_lt (by simp only [Nat.reducePow]; omega)
  simp only [hv, freadBytes, List.take_left', List.drop_left']
  by_cases hsz : s.length ≥ size
  · have : (s.length + 1) % 18446744073709551616 = s.length + 1 := Nat.mod_eq_of_lt hs
    simp [hsz, this]
  · refine ⟨alloc, ?_, by omega⟩
    have h1 : s.length ≤ alloc := by omega
    have h2 : s.length < alloc := by omega
    simp [hsz, h1, h2]

theorem strread_truncated (alloc size : Nat) (s cut : Bytes)
    (hs : s.length + 1 < 18446744073709551616)
    (hcut : cut <+: strwrite s) (hne : cut ≠ strwrite s) (ha : size ≤ alloc) :
    ∃ r, strread alloc size cut = .ok r ∧ r.ret = 1 ∧ r.rest = [] := by
  have h8 : (leBytes 8 s.length).length = 8 := leBytes_length _ _
  have hlen : cut.length < (strwrite s).length := by
    obtain ⟨t, ht⟩ := hcut
    have : t ≠ [] := by
      rintro rfl
      simp at ht
      exact hne ht
    rw [← ht]
    have := List.length_pos_iff.2 this
    simp; omega
  by_cases hc : cut.length < 8
  · exact ⟨_, by rw [strread, fread1_short hc], rfl, rfl⟩
  · have : cut = leBytes 8 s.length ++ cut.drop 8 := by
      obtain ⟨t, ht⟩ := hcut
      have h := congrArg (List.take 8) ht
      rw [List.take_append_of_le_length (by omega)] at h
      rw [strwrite, List.take_left' h8] at h
      rw [← h, List.take_append_drop]
    obtain ⟨d, hd⟩ : ∃ d, d = cut.drop 8 := ⟨_, rfl⟩
    rw [← hd] at this
    subst this
    have hv : leVal (leBytes 8 s.length) = s.length := leVal_leBytes_of_lt (by simp only [Nat.reducePow]; omega)
    have hdl : d.length < s.length := by
      simp [strwrite, h8] at hlen
      omega
    unfold strread
    rw [fread1_append _ h8]
    simp only [hv, freadBytes]
    have htake : d.take s.length = d := List.take_of_length_le (by omega)
    have hdrop : d.drop s.length = [] := List.drop_of_length_le (by omega)
    rw [htake, hdrop]
    have hmod : (s.length + 1) % 18446744073709551616 = s.length + 1 := Nat.mod_eq_of_lt hs
    generalize hA : (if s.length ≥ size then (s.length + 1) % 18446744073709551616 else alloc) = A
    have h1 : s.length < A := by
      rw [← hA]
      split <;> omega
    have hc : d.length ≤ A ∧ s.length < A := by omega
    have hc' : d.length ≠ s.length := by omega
    refine ⟨{ ret := 1, alloc := A, content := [], rest := [] }, ?_, rfl, rfl⟩
    rw [if_pos hc, if_pos hc']

end Nx
