import Verif.Model.Timing
import Verif.Props.MeanFloat

/-! # C153: the timer -/

namespace Nx

/-- Nanoseconds of a time. -/
def TimeSpec.ns (t : TimeSpec) : Int := 1000000000 * t.sec + t.nsec

/-- What the clock gives: the nanoseconds are less than a second. -/
structure Timer.Valid (t : Timer) : Prop where
  start_ge : 0 ≤ t.start.nsec
  start_lt : t.start.nsec < 1000000000
  stop_ge : 0 ≤ t.stop.nsec
  stop_lt : t.stop.nsec < 1000000000

theorem small_1074 : (2 : Rat) ^ (-1074 : Int) ≤ 1 / 1152921504606846976 := by
  have h : (2 : Rat) ^ (-1074 : Int) ≤ 2 ^ (-60 : Int) := zpow_le_zpow_two (by norm_num)
  have e : (2 : Rat) ^ (-60 : Int) = 1 / 1152921504606846976 := by norm_num
  rwa [e] at h

theorem f64_near (q : Rat) : |f64 q - q| ≤ |q| / 9007199254740992 + 1 / 1152921504606846976 := by
  have := f64_err q
  have := small_1074
  linarith

theorem micro : |f64 (1 / 1000000) - 1 / 1000000| ≤ 1 / 1000000000000000000000 ∧ 0 ≤ f64 (1 / 1000000) ∧ f64 (1 / 1000000) ≤ 1 / 1000000 := by
  decide +kernel

/-- C153. Up to 36 hours the time is that of the clock in milliseconds up to 15 picoseconds. -/
theorem c153_error (t : Timer) (hv : t.Valid) (hlo : -131072 ≤ t.stop.sec - t.start.sec) (hhi : t.stop.sec - t.start.sec ≤ 131072) :
    |measureMsec t - ((t.stop.ns - t.start.ns : Int) : Rat) / 1000000| ≤ 1 / 66000000 := by
  obtain ⟨v1, v2, v3, v4⟩ := hv
  unfold measureMsec TimeSpec.ns
  have e0 : (1000000000 * t.stop.sec + t.stop.nsec - (1000000000 * t.start.sec + t.start.nsec) : Int) =
      1000000000 * (t.stop.sec - t.start.sec) + (t.stop.nsec - t.start.nsec) := by ring
  rw [e0]
  have hn1 : -1000000000 ≤ t.stop.nsec - t.start.nsec := by omega
  have hn2 : t.stop.nsec - t.start.nsec ≤ 1000000000 := by omega
  generalize t.stop.sec - t.start.sec = D at *
  generalize t.stop.nsec - t.start.nsec = N at *
  have eD : f64 (D : Rat) = D := f64_int (by rw [abs_le]; omega)
  have eN : f64 (N : Rat) = N := f64_int (by rw [abs_le]; omega)
  have eA : f64 ((D : Rat) * 1000) = (D : Rat) * 1000 := by
    have := f64_int (n := D * 1000) (by rw [abs_le]; omega)
    push_cast at this
    exact this
  rw [eD, eN, eA]
  have qD1 : (-131072 : Rat) ≤ D := by exact_mod_cast hlo
  have qD2 : (D : Rat) ≤ 131072 := by exact_mod_cast hhi
  have qN1 : (-1000000000 : Rat) ≤ N := by exact_mod_cast hn1
  have qN2 : (N : Rat) ≤ 1000000000 := by exact_mod_cast hn2
  obtain ⟨m1, m2, m3⟩ := micro
  generalize f64 (1 / 1000000) = c at *
  have hN : |(N : Rat)| ≤ 1000000000 := abs_le.mpr ⟨qN1, qN2⟩
  have h1 : |(N : Rat) * c - N / 1000000| ≤ 1 / 1000000000000 := by
    have e : (N : Rat) * c - N / 1000000 = N * (c - 1 / 1000000) := by ring
    rw [e, abs_mul]
    calc |(N : Rat)| * |c - 1 / 1000000| ≤ 1000000000 * (1 / 1000000000000000000000) :=
          mul_le_mul hN m1 (abs_nonneg _) (by norm_num)
      _ = _ := by norm_num
  have h1' := abs_le.mp h1
  have h2 : |(N : Rat) * c| ≤ 1001 := by
    rw [abs_le]
    constructor <;> linarith [h1'.1, h1'.2]
  have h3 := abs_le.mp (f64_near ((N : Rat) * c))
  have h4 : |(D : Rat) * 1000 + f64 ((N : Rat) * c)| ≤ 131075000 := by
    rw [abs_le]
    constructor <;> linarith [h3.1, h3.2, h1'.1, h1'.2]
  have h5 := abs_le.mp (f64_near ((D : Rat) * 1000 + f64 ((N : Rat) * c)))
  rw [abs_le]
  push_cast
  constructor <;> linarith [h3.1, h3.2, h1'.1, h1'.2, h5.1, h5.2]

/-- C153. Up to 36 hours a longer time is measured as longer. -/
theorem c153_order (s t : Timer) (hs : s.Valid) (ht : t.Valid) (s1 : -131072 ≤ s.stop.sec - s.start.sec)
    (s2 : s.stop.sec - s.start.sec ≤ 131072) (t1 : -131072 ≤ t.stop.sec - t.start.sec) (t2 : t.stop.sec - t.start.sec ≤ 131072)
    (h : s.stop.ns - s.start.ns < t.stop.ns - t.start.ns) : measureMsec s < measureMsec t := by
  have e1 := abs_le.mp (c153_error s hs s1 s2)
  have e2 := abs_le.mp (c153_error t ht t1 t2)
  have h' : ((s.stop.ns - s.start.ns : Int) : Rat) + 1 ≤ ((t.stop.ns - t.start.ns : Int) : Rat) := by exact_mod_cast h
  linarith [e1.2, e2.1]

/-- C153. A time is never negative if the clock does not go back, however long it takes. -/
theorem c153_nonneg (t : Timer) (hv : t.Valid) (h : t.start.ns ≤ t.stop.ns) : 0 ≤ measureMsec t := by
  obtain ⟨v1, v2, v3, v4⟩ := hv
  unfold TimeSpec.ns at h
  unfold measureMsec
  have hn1 : -1000000000 < t.stop.nsec - t.start.nsec := by omega
  have hDN : 0 ≤ 1000000000 * (t.stop.sec - t.start.sec) + (t.stop.nsec - t.start.nsec) := by omega
  have hn2 : t.stop.nsec - t.start.nsec < 1000000000 := by omega
  generalize t.stop.sec - t.start.sec = D at *
  generalize t.stop.nsec - t.start.nsec = N at *
  have eN : f64 (N : Rat) = N := f64_int (by rw [abs_le]; omega)
  rw [eN]
  obtain ⟨m1, m2, m3⟩ := micro
  have h0 : ∀ q : Rat, 0 ≤ q → 0 ≤ f64 q := by
    intro q hq
    have := f64_mono hq
    rwa [f64_zero] at this
  apply h0
  by_cases hD : 1 ≤ D
  · have hD' : (1 : Rat) ≤ D := by exact_mod_cast hD
    have a1 : (1 : Rat) ≤ f64 (D : Rat) := by
      have := f64_mono hD'
      have e : f64 1 = 1 := by
        have := f64_int (n := 1) (by norm_num)
        exact_mod_cast this
      rwa [e] at this
    have a2 : (1000 : Rat) ≤ f64 (f64 (D : Rat) * 1000) := by
      have := f64_mono (show (1000 : Rat) ≤ f64 (D : Rat) * 1000 by linarith)
      have e : f64 1000 = 1000 := by
        have := f64_int (n := 1000) (by norm_num)
        exact_mod_cast this
      rwa [e] at this
    have a3 : (-1000 : Rat) ≤ f64 ((N : Rat) * f64 (1 / 1000000)) := by
      have hN : (-1000000000 : Rat) ≤ N := by exact_mod_cast hn1.le
      have hp : (-1000000000 : Rat) * f64 (1 / 1000000) ≤ N * f64 (1 / 1000000) := mul_le_mul_of_nonneg_right hN m2
      have := f64_mono (show (-1000 : Rat) ≤ (N : Rat) * f64 (1 / 1000000) by linarith)
      have e : f64 (-1000) = -1000 := by
        have := f64_int (n := -1000) (by norm_num)
        exact_mod_cast this
      rwa [e] at this
    linarith
  · have hD0 : D = 0 := by omega
    have hN : (0 : Rat) ≤ N := by
      have : 0 ≤ N := by omega
      exact_mod_cast this
    have e : f64 (f64 ((D : Int) : Rat) * 1000) = 0 := by
      rw [hD0]
      decide +kernel
    rw [e, zero_add]
    exact h0 _ (mul_nonneg hN m2)

/-- C153 fails: the same time, one nanosecond, is measured differently if a second begins in between. -/
theorem c153_same_false (s : Int) :
    let a : Timer := ⟨⟨s, 0⟩, ⟨s, 1⟩⟩
    let b : Timer := ⟨⟨s, 999999999⟩, ⟨s + 1, 0⟩⟩
    a.Valid ∧ b.Valid ∧ a.stop.ns - a.start.ns = b.stop.ns - b.start.ns ∧ measureMsec b < measureMsec a := by
  refine ⟨⟨by norm_num, by norm_num, by norm_num, by norm_num⟩, ⟨by norm_num, by norm_num, by norm_num, by norm_num⟩, ?_, ?_⟩
  · simp only [TimeSpec.ns]
    ring
  · unfold measureMsec
    simp only
    rw [sub_self, add_sub_cancel_left]
    decide +kernel

/-! ## Examples -/

/-- The hypotheses of `c153_error` can be met. -/
example : measureMsec ⟨⟨5, 999999999⟩, ⟨8, 500000000⟩⟩ ≠ 0 ∧ (⟨⟨5, 999999999⟩, ⟨8, 500000000⟩⟩ : Timer).Valid :=
  ⟨by decide +kernel, ⟨by norm_num, by norm_num, by norm_num, by norm_num⟩⟩

example : measureMsec ⟨⟨5, 250000000⟩, ⟨7, 750000000⟩⟩ = 2500 := by decide +kernel

end Nx
