import Verif.Model.FastThreshold

/-! # C51: the adaptive FAST threshold stays in range -/

namespace Nx

/-- C51, one adaptation: it succeeds, stays in range and moves by at most three; it
rises only if the number of detections reaches (the integer part of) 1014/1024 of
the maximum and falls only if it is at most 921/1024 of the maximum. -/
theorem c51_step (t n m : Int) (ht : 5 ≤ t ∧ t ≤ 250) (hm : 0 ≤ m ∧ m ≤ 2117833) :
    ∃ t', adaptThreshold t n m = .ok t' ∧ (5 ≤ t' ∧ t' ≤ 250) ∧
      (t' > t → 1014 * m < 1024 * (n + 1)) ∧
      (t' < t → 1024 * n ≤ 921 * m ∧ 1024 * n ≤ 1014 * m) ∧
      (1014 * m < 1024 * (n + 1) → t' = if t + 3 ≤ 250 then t + 3 else 250) ∧
      (1024 * n ≤ 716 * m → 1024 * (n + 1) ≤ 1014 * m → t' = if t - 3 ≥ 5 then t - 3 else 5) ∧
      (716 * m < 1024 * n → 1024 * n ≤ 921 * m → 1024 * (n + 1) ≤ 1014 * m →
        t' = if t - 1 ≥ 5 then t - 1 else 5) ∧
      (921 * m < 1024 * n → 1024 * (n + 1) ≤ 1014 * m → t' = t) := by
  have h1 : keyLimit 1014 m = .ok (1014 * m / 1024) := by
    unfold keyLimit; rw [if_pos]; constructor <;> omega
  have h2 : keyLimit 921 m = .ok (921 * m / 1024) := by
    unfold keyLimit; rw [if_pos]; constructor <;> omega
  have h3 : keyLimit 716 m = .ok (716 * m / 1024) := by
    unfold keyLimit; rw [if_pos]; constructor <;> omega
  unfold adaptThreshold
  rw [h1, h2, h3]
  simp only [Res.ok_bind]
  unfold adaptedThreshold minI maxI
  have i1 : InI32 (t + 3) := by constructor <;> omega
  have i2 : InI32 (t - 3) := by constructor <;> omega
  have i3 : InI32 (t - 1) := by constructor <;> omega
  simp only [if_pos i1, if_pos i2, if_pos i3]
  by_cases c1 : n ≥ 1014 * m / 1024
  · rw [if_pos c1]
    simp only [Res.ok_bind]
    rw [if_pos (by split <;> omega), if_pos (by split <;> omega)]
    refine ⟨_, rfl, ?_⟩
    split <;> (refine ⟨?_, ?_, ?_, ?_, ?_, ?_, ?_⟩ <;> omega)
  · rw [if_neg c1]
    by_cases c2 : n ≤ 716 * m / 1024
    · rw [if_pos c2]
      simp only [Res.ok_bind]
      rw [if_pos (by split <;> omega), if_pos (by split <;> omega)]
      refine ⟨_, rfl, ?_⟩
      split <;> (refine ⟨?_, ?_, ?_, ?_, ?_, ?_, ?_⟩ <;> omega)
    · rw [if_neg c2]
      by_cases c3 : n ≤ 921 * m / 1024
      · rw [if_pos c3]
        simp only [Res.ok_bind]
        rw [if_pos (by split <;> omega), if_pos (by split <;> omega)]
        refine ⟨_, rfl, ?_⟩
        split <;> (refine ⟨?_, ?_, ?_, ?_, ?_, ?_, ?_⟩ <;> omega)
      · rw [if_neg c3]
        simp only [Res.ok_bind]
        rw [if_pos (by omega), if_pos (by omega)]
        refine ⟨_, rfl, ?_⟩
        (refine ⟨?_, ?_, ?_, ?_, ?_, ?_, ?_⟩ <;> omega)

/-- C51: any number of adaptations succeeds and keeps the threshold in range. -/
theorem c51_history (h : List (Int × Int)) (t : Int) (ht : 5 ≤ t ∧ t ≤ 250)
    (hm : ∀ e ∈ h, 0 ≤ e.2 ∧ e.2 ≤ 2117833) :
    ∃ t', adaptRun t h = .ok t' ∧ 5 ≤ t' ∧ t' ≤ 250 := by
  induction h generalizing t with
  | nil => exact ⟨t, rfl, ht⟩
  | cons e h ih =>
    obtain ⟨n, m⟩ := e
    obtain ⟨t1, h1, h2, _⟩ := c51_step t n m ht (hm (n, m) (by simp))
    obtain ⟨t', h3, h4⟩ := ih t1 h2 (fun e he => hm e (by simp [he]))
    refine ⟨t', ?_, h4⟩
    unfold adaptRun
    rw [h1]
    exact h3

/-- The bound on the requested number is needed: above it the limit overflows. -/
theorem c51_overflow (t n : Int) : adaptThreshold t n 2117834 = .ub := by
  unfold adaptThreshold
  rw [show keyLimit 1014 2117834 = .ub by decide]
  rfl

example : adaptRun 20 [(1000, 1000), (950, 1000), (3, 1000), (800, 1000)] = .ok 19 := by decide +kernel

end Nx
