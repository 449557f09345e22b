import Verif.Model.Fast9

/-! # The decision trees decide the segment test -/

namespace Nx

/-- Nine contiguous positions of the circle of 16, starting at `s`, all satisfy `p`. -/
def ArcAll (p : Nat → Bool) (s : Nat) : Prop := ∀ k < 9, p ((s + k) % 16) = true

instance (p : Nat → Bool) (s : Nat) : Decidable (ArcAll p s) := by unfold ArcAll; infer_instance

/-- Some nine contiguous positions are all bright or all dark. -/
def Segment (isB isD : Nat → Bool) : Prop := ∃ s, s < 16 ∧ (ArcAll isB s ∨ ArcAll isD s)

instance (isB isD : Nat → Bool) : Decidable (Segment isB isD) := by unfold Segment; infer_instance

/-- The tree with the outcomes of the comparisons given. -/
def FastTree.eval (isB isD : Nat → Bool) : FastTree → Bool
  | .yes => true
  | .no => false
  | .bright i a b => if isB i then a.eval isB isD else b.eval isB isD
  | .dark i a b => if isD i then a.eval isB isD else b.eval isB isD

/-- The arcs as bit masks. -/
def arcMask (s : Nat) : Nat := (511 <<< s) % 65536 ||| (511 <<< s) / 65536

def clearBit (m i : Nat) : Nat := m &&& (65535 ^^^ (1 <<< i))

/-- `mb`, `md` and `mm` are the positions that may still be bright, dark, neither. -/
def FastTree.check : FastTree → Nat → Nat → Nat → Bool
  | .yes, mb, md, mm =>
    (List.range 16).any (fun s => Nat.beq (arcMask s &&& (md ||| mm)) 0) ||
    (List.range 16).any (fun s => Nat.beq (arcMask s &&& (mb ||| mm)) 0)
  | .no, mb, md, _ =>
    (List.range 16).all (fun s => !Nat.beq (arcMask s &&& mb) (arcMask s) && !Nat.beq (arcMask s &&& md) (arcMask s))
  | .bright i a b, mb, md, mm =>
    Nat.blt i 16 && (a.check mb (clearBit md i) (clearBit mm i) && b.check (clearBit mb i) md mm)
  | .dark i a b, mb, md, mm =>
    Nat.blt i 16 && (a.check (clearBit mb i) md (clearBit mm i) && b.check mb (clearBit md i) mm)

theorem arcMask_mem : ∀ s < 16, ∀ k < 9, (arcMask s).testBit ((s + k) % 16) = true := by decide +kernel

theorem arcMask_only : ∀ s < 16, ∀ j < 16, (arcMask s).testBit j = true → ∃ k, k < 9 ∧ j = (s + k) % 16 := by
  decide +kernel

theorem arcMask_lt : ∀ s < 16, arcMask s < 65536 := by decide +kernel

theorem full_testBit : ∀ j < 16, Nat.testBit 65535 j = true := by decide

theorem clearBit_testBit {m i j : Nat} (hj : j < 16) (hne : j ≠ i) : (clearBit m i).testBit j = m.testBit j := by
  unfold clearBit
  rw [Nat.testBit_and, Nat.testBit_xor, full_testBit j hj, Nat.one_shiftLeft, Nat.testBit_two_pow]
  have : decide (i = j) = false := by simpa using fun h => hne h.symm
  simp [this]

/-- The outcomes are possible in a state of the check. -/
def Possible (isB isD : Nat → Bool) (mb md mm : Nat) : Prop :=
  ∀ j < 16, (isB j = true → mb.testBit j = true) ∧ (isD j = true → md.testBit j = true) ∧
    (isB j = false → isD j = false → mm.testBit j = true)

theorem and_eq_zero_bit {a m j : Nat} (h : Nat.beq (a &&& m) 0 = true) (hj : a.testBit j = true) : m.testBit j = false := by
  have h' : a &&& m = 0 := Nat.eq_of_beq_eq_true h
  have : (a &&& m).testBit j = false := by rw [h']; exact Nat.zero_testBit j
  rw [Nat.testBit_and, hj] at this
  simpa using this

theorem all_of_and_eq {a m s : Nat} (hs : s < 16) (ha : a = arcMask s) (h : (a &&& m) ≠ a) :
    ∃ k, k < 9 ∧ m.testBit ((s + k) % 16) = false := by
  apply Classical.byContradiction
  intro hc
  apply h
  apply Nat.eq_of_testBit_eq
  intro j
  rw [Nat.testBit_and]
  by_cases hj : a.testBit j = true
  · have hj16 : j < 16 := by
      apply Classical.byContradiction
      intro hge
      have hlt : a < 2 ^ j := by
        have h1 := arcMask_lt s hs
        have h2 : (2 : Nat) ^ 16 ≤ 2 ^ j := Nat.pow_le_pow_right (by omega) (by omega)
        rw [← ha] at h1
        omega
      rw [Nat.testBit_lt_two_pow hlt] at hj
      cases hj
    obtain ⟨k, hk, hjk⟩ := arcMask_only s hs j hj16 (by rw [← ha]; exact hj)
    have : m.testBit j = true := by
      cases hm : m.testBit j
      · exact absurd ⟨k, hk, by rw [← hjk]; exact hm⟩ hc
      · rfl
    rw [hj, this]; rfl
  · simp [hj]

/-- What the check accepts decides the segment test. -/
theorem FastTree.check_sound {isB isD : Nat → Bool} (hx : ∀ j, ¬ (isB j = true ∧ isD j = true)) :
    ∀ (t : FastTree) (mb md mm : Nat), t.check mb md mm = true → Possible isB isD mb md mm →
      (t.eval isB isD = true ↔ Segment isB isD) := by
  intro t
  induction t with
  | yes =>
    intro mb md mm hc hp
    simp only [FastTree.eval, true_iff]
    unfold FastTree.check at hc
    simp only [Bool.or_eq_true, List.any_eq_true, List.mem_range] at hc
    rcases hc with ⟨s, hs, h⟩ | ⟨s, hs, h⟩
    · refine ⟨s, hs, Or.inl ?_⟩
      intro k hk
      have h1 := and_eq_zero_bit h (arcMask_mem s hs k hk)
      rw [Nat.testBit_or, Bool.or_eq_false_iff] at h1
      obtain ⟨p1, p2, p3⟩ := hp ((s + k) % 16) (Nat.mod_lt _ (by omega))
      cases hb : isB ((s + k) % 16)
      · cases hd : isD ((s + k) % 16)
        · rw [p3 hb hd] at h1; simp at h1
        · rw [p2 hd] at h1; simp at h1
      · rfl
    · refine ⟨s, hs, Or.inr ?_⟩
      intro k hk
      have h1 := and_eq_zero_bit h (arcMask_mem s hs k hk)
      rw [Nat.testBit_or, Bool.or_eq_false_iff] at h1
      obtain ⟨p1, p2, p3⟩ := hp ((s + k) % 16) (Nat.mod_lt _ (by omega))
      cases hd : isD ((s + k) % 16)
      · cases hb : isB ((s + k) % 16)
        · rw [p3 hb hd] at h1; simp at h1
        · rw [p1 hb] at h1; simp at h1
      · rfl
  | no =>
    intro mb md mm hc hp
    simp only [FastTree.eval, Bool.false_eq_true, false_iff]
    unfold FastTree.check at hc
    simp only [List.all_eq_true, List.mem_range, Bool.and_eq_true, Bool.not_eq_true'] at hc
    rintro ⟨s, hs, h⟩
    obtain ⟨h1, h2⟩ := hc s hs
    rcases h with h | h
    · obtain ⟨k, hk, hm⟩ := all_of_and_eq hs rfl (Nat.ne_of_beq_eq_false h1)
      have := (hp ((s + k) % 16) (Nat.mod_lt _ (by omega))).1 (h k hk)
      rw [hm] at this; cases this
    · obtain ⟨k, hk, hm⟩ := all_of_and_eq hs rfl (Nat.ne_of_beq_eq_false h2)
      have := (hp ((s + k) % 16) (Nat.mod_lt _ (by omega))).2.1 (h k hk)
      rw [hm] at this; cases this
  | bright i a b iha ihb =>
    intro mb md mm hc hp
    unfold FastTree.check at hc
    simp only [Bool.and_eq_true] at hc
    obtain ⟨hi, hca, hcb⟩ := hc
    unfold FastTree.eval
    cases hbi : isB i
    · simp only [Bool.false_eq_true, if_false]
      refine ihb _ _ _ hcb ?_
      intro j hj
      obtain ⟨p1, p2, p3⟩ := hp j hj
      refine ⟨?_, p2, p3⟩
      intro hbj
      by_cases hji : j = i
      · subst hji; rw [hbi] at hbj; cases hbj
      · rw [clearBit_testBit hj hji]; exact p1 hbj
    · simp only [if_true]
      refine iha _ _ _ hca ?_
      intro j hj
      obtain ⟨p1, p2, p3⟩ := hp j hj
      by_cases hji : j = i
      · subst hji
        refine ⟨p1, fun hd => absurd ⟨hbi, hd⟩ (hx j), fun hb => ?_⟩
        rw [hbi] at hb; cases hb
      · rw [clearBit_testBit hj hji, clearBit_testBit hj hji]
        exact ⟨p1, p2, p3⟩
  | dark i a b iha ihb =>
    intro mb md mm hc hp
    unfold FastTree.check at hc
    simp only [Bool.and_eq_true] at hc
    obtain ⟨hi, hca, hcb⟩ := hc
    unfold FastTree.eval
    cases hdi : isD i
    · simp only [Bool.false_eq_true, if_false]
      refine ihb _ _ _ hcb ?_
      intro j hj
      obtain ⟨p1, p2, p3⟩ := hp j hj
      refine ⟨p1, ?_, p3⟩
      intro hdj
      by_cases hji : j = i
      · subst hji; rw [hdi] at hdj; cases hdj
      · rw [clearBit_testBit hj hji]; exact p2 hdj
    · simp only [if_true]
      refine iha _ _ _ hca ?_
      intro j hj
      obtain ⟨p1, p2, p3⟩ := hp j hj
      by_cases hji : j = i
      · subst hji
        refine ⟨fun hb => absurd ⟨hb, hdi⟩ (hx j), p2, fun _ hd => ?_⟩
        rw [hdi] at hd; cases hd
      · rw [clearBit_testBit hj hji, clearBit_testBit hj hji]
        exact ⟨p1, p2, p3⟩

theorem possible_all (isB isD : Nat → Bool) : Possible isB isD 65535 65535 65535 :=
  fun j hj => ⟨fun _ => full_testBit j hj, fun _ => full_testBit j hj, fun _ _ => full_testBit j hj⟩

theorem detectTree_check : fast9DetectTree.check 65535 65535 65535 = true := by decide +kernel

theorem scoreTree_check : fast9ScoreTree.check 65535 65535 65535 = true := by decide +kernel

/-- All reads succeed: the walk is the evaluation. -/
theorem FastTree.walk_ok {rd : Nat → Res Int} {v : Nat → Int} {cb c_b : Int} (hrd : ∀ k < 16, rd k = .ok (v k)) :
    ∀ (t : FastTree) (mb md mm : Nat), t.check mb md mm = true →
      t.walk rd cb c_b = .ok (t.eval (fun k => decide (v k > cb)) (fun k => decide (v k < c_b))) := by
  intro t
  induction t with
  | yes => intros; rfl
  | no => intros; rfl
  | bright i a b iha ihb =>
    intro mb md mm hc
    unfold FastTree.check at hc
    simp only [Bool.and_eq_true] at hc
    obtain ⟨hi, hca, hcb⟩ := hc
    unfold FastTree.walk FastTree.eval
    rw [hrd i (Nat.blt_eq.mp hi)]
    simp only [Res.ok_bind, decide_eq_true_eq]
    split
    · exact iha _ _ _ hca
    · exact ihb _ _ _ hcb
  | dark i a b iha ihb =>
    intro mb md mm hc
    unfold FastTree.check at hc
    simp only [Bool.and_eq_true] at hc
    obtain ⟨hi, hca, hcb⟩ := hc
    unfold FastTree.walk FastTree.eval
    rw [hrd i (Nat.blt_eq.mp hi)]
    simp only [Res.ok_bind, decide_eq_true_eq]
    split
    · exact iha _ _ _ hca
    · exact ihb _ _ _ hcb

end Nx
