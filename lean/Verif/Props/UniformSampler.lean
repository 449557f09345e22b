import Verif.Model.UniformSampler
import Verif.Props.Getline

/-!
# C69: sampling of matches
-/

namespace Nx

/-- Rounding adds at most half a unit in the last place. -/
theorem round24_up (x m : Nat) (hx : x < 2 ^ m) (hm : 24 ≤ m) : 2 * round24 x ≤ 2 * x + 2 ^ (m - 24) := by
  unfold round24
  simp only
  by_cases hs : Nat.log2 x + 1 - 24 = 0
  · rw [if_pos hs]; exact Nat.le_add_right _ _
  · rw [if_neg hs]
    have hx0 : x ≠ 0 := by
      rintro rfl
      rw [Nat.log2_zero] at hs
      omega
    have hl : Nat.log2 x < m := (Nat.log2_lt hx0).mpr hx
    generalize hse : Nat.log2 x + 1 - 24 = s at hs ⊢
    have hle : 2 ^ s ≤ 2 ^ (m - 24) := Nat.pow_le_pow_right (by decide) (by omega)
    have hp2 : 2 ^ s = 2 * 2 ^ (s - 1) := by
      have : s = (s - 1) + 1 := by omega
      conv => lhs; rw [this, Nat.pow_succ]
      omega
    have hdiv := Nat.div_add_mod x (2 ^ s)
    have hmod := Nat.mod_lt x (Nat.two_pow_pos s)
    generalize x / 2 ^ s = q at *
    generalize x % 2 ^ s = r at *
    have hq : (q + 1) * 2 ^ s = 2 ^ s * q + 2 ^ s := by rw [Nat.add_mul, Nat.mul_comm]; omega
    have hq2 : q * 2 ^ s = 2 ^ s * q := Nat.mul_comm _ _
    split
    · rw [hq]
      generalize 2 ^ s * q = A at *
      omega
    · rw [hq2]
      generalize 2 ^ s * q = A at *
      omega

/-- A number with at most 24 significant bits is not changed. -/
theorem round24_exact (x : Nat) (h : 2 ^ (Nat.log2 x + 1 - 24) ∣ x) : round24 x = x := by
  unfold round24
  simp only
  split
  · rfl
  · obtain ⟨q, hq⟩ := h
    have hpos := Nat.two_pow_pos (Nat.log2 x + 1 - 24)
    have h1 : x % 2 ^ (Nat.log2 x + 1 - 24) = 0 := Nat.mod_eq_zero_of_dvd ⟨q, hq⟩
    have h2 : ¬ (0 > 2 ^ (Nat.log2 x + 1 - 24 - 1) ∨ (0 = 2 ^ (Nat.log2 x + 1 - 24 - 1) ∧
        x / 2 ^ (Nat.log2 x + 1 - 24) % 2 = 1)) := by
      have := Nat.two_pow_pos (Nat.log2 x + 1 - 24 - 1)
      omega
    rw [h1, if_neg h2]
    exact Nat.div_mul_cancel ⟨q, hq⟩

theorem round24_small (n : Nat) (hn : n ≤ 16777216) : round24 n = n := by
  rcases Nat.lt_or_ge n 16777216 with h | h
  · apply round24_exact
    by_cases h0 : n = 0
    · subst h0; exact Nat.dvd_zero _
    · have : Nat.log2 n < 24 := (Nat.log2_lt h0).mpr h
      have e : Nat.log2 n + 1 - 24 = 0 := by omega
      rw [e]
      exact Nat.one_dvd _
  · have : n = 16777216 := by omega
    subst this
    decide

/-- The single precision sample is one for the largest 128 numbers, and at most `1 - 2^-24` for all others. -/
theorem c69_sample (v : BitVec 32) :
    (4294967168 ≤ v.toNat → sampleS v = 4294967296) ∧ (v.toNat < 4294967168 → sampleS v ≤ 4294967040) := by
  have hv := v.isLt
  unfold sampleS
  generalize v.toNat = x at *
  constructor
  · intro h
    have hl : Nat.log2 x = 31 := by
      rw [Nat.log2_eq_iff (by omega)]
      omega
    unfold round24
    rw [hl]
    simp only
    rw [if_neg (by decide), if_pos (by omega)]
    omega
  · intro h
    by_cases h31 : x < 2 ^ 31
    · have := round24_up x 31 h31 (by decide)
      omega
    · have hl : Nat.log2 x = 31 := by
        rw [Nat.log2_eq_iff (by omega)]
        omega
      unfold round24
      rw [hl]
      simp only
      rw [if_neg (by decide)]
      split <;> omega

/-- The index is less than the number of candidates unless the number is one of the largest 128. -/
theorem c69_index_partial (n : Nat) (v : BitVec 32) (h0 : 0 < n) (hn : n ≤ 16777216) (hv : v.toNat < 4294967168) :
    sampleIndex n v < n := by
  have hs := (c69_sample v).2 hv
  unfold sampleIndex
  rw [round24_small n hn, Nat.div_lt_iff_lt_mul (by decide)]
  generalize sampleS v = s at *
  have hP : s * n ≤ 4294967040 * n := Nat.mul_le_mul_right n hs
  have hk1 := Nat.log2_self_le (n := n) (by omega)
  have hk2 := Nat.lt_log2_self (n := n)
  generalize Nat.log2 n = k at *
  rcases Nat.eq_or_lt_of_le hk1 with h | h
  · -- a power of two
    have hx : s * n < 2 ^ (k + 32) := by
      rw [Nat.pow_add, h]
      omega
    have hr := round24_up (s * n) (k + 32) hx (by omega)
    have e : k + 32 - 24 = k + 8 := by omega
    rw [e, Nat.pow_add, h] at hr
    omega
  · have hx : s * n < 2 ^ (k + 33) := by
      have e : k + 33 = (k + 1) + 32 := by omega
      rw [e, Nat.pow_add]
      omega
    have hr := round24_up (s * n) (k + 33) hx (by omega)
    have e : k + 33 - 24 = k + 9 := by omega
    rw [e, Nat.pow_add] at hr
    omega

/-- For these numbers the index is the number of candidates itself, one beyond the last one. -/
theorem c69_index_out (n : Nat) (v : BitVec 32) (hn : n ≤ 16777216) (hv : 4294967168 ≤ v.toNat) :
    sampleIndex n v = n := by
  unfold sampleIndex
  rw [(c69_sample v).1 hv, round24_small n hn, round24_exact]
  · exact Nat.mul_div_cancel_left n (by decide)
  · by_cases h0 : n = 0
    · subst h0; exact Nat.dvd_zero _
    · have h1 : Nat.log2 (4294967296 * n) < 57 := (Nat.log2_lt (by omega)).mpr (by omega)
      rcases Nat.lt_or_ge n 16777216 with h | h
      · have h2 : Nat.log2 (4294967296 * n) < 56 := (Nat.log2_lt (by omega)).mpr (by omega)
        exact Nat.dvd_trans (Nat.pow_dvd_pow 2 (n := 32) (by omega)) (Nat.dvd_mul_right _ _)
      · have e : n = 16777216 := by omega
        subst e
        exact Nat.dvd_trans (Nat.pow_dvd_pow 2 (n := 34) (by omega)) (by decide)

/-- With such a number, the sample lies outside an array with `n` elements. -/
theorem c69_out_of_bounds {α : Type} (a : List α) (ha : a.length ≤ 16777216) (v : BitVec 32) (hv : 4294967168 ≤ v.toNat) :
    readI a (sampleIndex a.length v) = .ub := by
  rw [c69_index_out _ _ ha hv, readI, if_pos (by omega), Int.toNat_natCast, readAt]
  simp

theorem drawUntil_spec (n : Nat) (bad : Nat → Bool) : ∀ (vs : List (BitVec 32)) (i : Nat) (vs' : List (BitVec 32)),
    drawUntil n bad vs = some (i, vs') →
      bad i = false ∧ ∃ skipped v, vs = skipped ++ v :: vs' ∧ i = sampleIndex n v ∧
        ∀ w ∈ skipped, bad (sampleIndex n w) = true
  | [], _, _, h => by simp [drawUntil] at h
  | v :: vs, i, vs', h => by
    rw [drawUntil] at h
    split at h
    · rename_i hb
      obtain ⟨h1, sk, w, h2, h3, h4⟩ := drawUntil_spec n bad vs i vs' h
      refine ⟨h1, v :: sk, w, by simp [h2], h3, ?_⟩
      intro w' hw'
      rcases List.mem_cons.mp hw' with rfl | h5
      · exact hb
      · exact h4 w' h5
    · rename_i hb
      simp only [Option.some.injEq, Prod.mk.injEq] at h
      obtain ⟨rfl, rfl⟩ := h
      refine ⟨by simpa using hb, [], v, rfl, rfl, by simp⟩

theorem drawUntil_some (n : Nat) (bad : Nat → Bool) : ∀ (vs more : List (BitVec 32)),
    (∃ v ∈ vs, bad (sampleIndex n v) = false) → ∃ i sk, drawUntil n bad (vs ++ more) = some (i, sk ++ more)
  | [], _, h => by simp at h
  | v :: vs, more, h => by
    rw [List.cons_append, drawUntil]
    split
    · rename_i hb
      apply drawUntil_some n bad vs more
      obtain ⟨w, hw, hbw⟩ := h
      rcases List.mem_cons.mp hw with rfl | h5
      · rw [hb] at hbw; cases hbw
      · exact ⟨w, h5, hbw⟩
    · exact ⟨_, vs, rfl⟩

/-- The four indices: all are samples of numbers of the generator. The first three are pairwise different; the fourth
differs from the first two. -/
theorem c69_select4_partial (n : Nat) (vs vs' : List (BitVec 32)) (a b c d : Nat)
    (h : selectProsac4 n vs = some ((a, b, c, d), vs')) :
    a ≠ b ∧ c ≠ a ∧ c ≠ b ∧ d ≠ a ∧ d ≠ b ∧ (∀ i ∈ [a, b, c, d], ∃ v ∈ vs, i = sampleIndex n v) ∧
      (0 < n → n ≤ 16777216 → (∀ v ∈ vs, v.toNat < 4294967168) → ∀ i ∈ [a, b, c, d], i < n) := by
  unfold selectProsac4 at h
  simp only [Option.bind_eq_bind, Option.pure_def, Option.bind_eq_some_iff, Prod.exists, Option.some.injEq,
    Prod.mk.injEq] at h
  obtain ⟨a', v1, h1, b', v2, h2, c', v3, h3, d', v4, h4, ⟨rfl, rfl, rfl, rfl⟩, rfl⟩ := h
  obtain ⟨-, s1, w1, e1, i1, -⟩ := drawUntil_spec _ _ _ _ _ h1
  obtain ⟨n2, s2, w2, e2, i2, -⟩ := drawUntil_spec _ _ _ _ _ h2
  obtain ⟨n3, s3, w3, e3, i3, -⟩ := drawUntil_spec _ _ _ _ _ h3
  obtain ⟨n4, s4, w4, e4, i4, -⟩ := drawUntil_spec _ _ _ _ _ h4
  simp only [beq_eq_false_iff_ne, Bool.or_eq_false_iff] at n2 n3 n4
  have hmem : ∀ i ∈ [a', b', c', d'], ∃ v ∈ vs, i = sampleIndex n v := by
    intro i hi
    simp only [List.mem_cons, List.not_mem_nil, or_false] at hi
    rcases hi with rfl | rfl | rfl | rfl
    · exact ⟨w1, by simp [e1], i1⟩
    · exact ⟨w2, by simp [e1, e2], i2⟩
    · exact ⟨w3, by simp [e1, e2, e3], i3⟩
    · exact ⟨w4, by simp [e1, e2, e3, e4], i4⟩
  refine ⟨fun e => n2 e.symm, n3.2, n3.1, n4.2, n4.1.1, hmem, ?_⟩
  intro h0 hn hv i hi
  obtain ⟨v, hvm, rfl⟩ := hmem i hi
  exact c69_index_partial n v h0 hn (hv v hvm)

/-- The fourth index can be the third. -/
theorem c69_select4_duplicate : ∃ vs vs' a b c, (∀ v ∈ vs, v.toNat < 4294967168) ∧
    selectProsac4 10 vs = some ((a, b, c, c), vs') :=
  ⟨[0, 1000000000, 2000000000, 2000000000], [], 0, 2, 4, by simp, by decide +kernel⟩

/-- The selection ends as soon as the generator has delivered, three times in a row, numbers with three different
indices. -/
theorem c69_select4_ends (n : Nat) (v : BitVec 32) (l1 l2 l3 more : List (BitVec 32))
    (h : ∀ l ∈ [l1, l2, l3], ∀ i j, ∃ w ∈ l, sampleIndex n w ≠ i ∧ sampleIndex n w ≠ j) :
    ∃ r, selectProsac4 n (v :: (l1 ++ (l2 ++ (l3 ++ more)))) = some r := by
  have h1 := h l1 (by simp)
  have h2 := h l2 (by simp)
  have h3 := h l3 (by simp)
  obtain ⟨b, s1, e1⟩ := drawUntil_some n (fun i => i == sampleIndex n v) l1 (l2 ++ (l3 ++ more)) (by
    obtain ⟨w, hw, ha, -⟩ := h1 (sampleIndex n v) 0
    exact ⟨w, hw, by simpa using ha⟩)
  obtain ⟨c, s2, e2⟩ := drawUntil_some n (fun i => i == b || i == sampleIndex n v) (s1 ++ l2) (l3 ++ more) (by
    obtain ⟨w, hw, ha, hb⟩ := h2 b (sampleIndex n v)
    exact ⟨w, by simp [hw], by simp [ha, hb]⟩)
  obtain ⟨d, s3, e3⟩ := drawUntil_some n (fun i => i == b || i == b || i == sampleIndex n v) (s2 ++ l3) more (by
    obtain ⟨w, hw, ha, hb⟩ := h3 b (sampleIndex n v)
    exact ⟨w, by simp [hw], by simp [ha, hb]⟩)
  rw [List.append_assoc] at e2 e3
  refine ⟨((sampleIndex n v, b, c, d), s3 ++ more), ?_⟩
  rw [selectProsac4, drawUntil]
  simp only [Bool.false_eq_true, if_false, Option.bind_eq_bind, Option.pure_def, Option.bind_some, e1, e2, e3]

theorem select8Loop_spec (n first : Nat) : ∀ (k : Nat) (rest : List Nat) (vs ids : List _) (vs' : List (BitVec 32)),
    rest.Nodup → select8Loop n first k rest vs = some (ids, vs') →
      ∃ rest', ids = first :: rest' ∧ rest'.Nodup ∧ rest'.length = rest.length + k ∧
        ∀ i ∈ rest', i ∈ rest ∨ ∃ v ∈ vs, i = sampleIndex n v := by
  intro k rest vs
  induction vs generalizing k rest with
  | nil =>
    intro ids vs' hn h
    cases k with
    | zero =>
      simp only [select8Loop, Option.some.injEq, Prod.mk.injEq] at h
      exact ⟨rest, h.1.symm, hn, rfl, fun i hi => Or.inl hi⟩
    | succ k => simp [select8Loop] at h
  | cons v vs ih =>
    intro ids vs' hn h
    cases k with
    | zero =>
      simp only [select8Loop, Option.some.injEq, Prod.mk.injEq] at h
      exact ⟨rest, h.1.symm, hn, rfl, fun i hi => Or.inl hi⟩
    | succ k =>
      rw [select8Loop] at h
      split at h
      · obtain ⟨r, h1, h2, h3, h4⟩ := ih (k + 1) rest ids vs' hn h
        refine ⟨r, h1, h2, h3, fun i hi => ?_⟩
        rcases h4 i hi with h5 | ⟨w, hw, h5⟩
        · exact Or.inl h5
        · exact Or.inr ⟨w, by simp [hw], h5⟩
      · rename_i hc
        have hc' : sampleIndex n v ∉ rest := by simpa using hc
        obtain ⟨r, h1, h2, h3, h4⟩ := ih k (rest ++ [sampleIndex n v]) ids vs' (by
          rw [List.nodup_append]
          refine ⟨hn, by simp, ?_⟩
          intro a ha b hb
          simp only [List.mem_singleton] at hb
          rintro rfl
          exact hc' (hb ▸ ha)) h
        refine ⟨r, h1, h2, by simp at h3; omega, fun i hi => ?_⟩
        rcases h4 i hi with h5 | ⟨w, hw, h5⟩
        · rcases List.mem_append.mp h5 with h6 | h6
          · exact Or.inl h6
          · exact Or.inr ⟨v, by simp, by simpa using h6⟩
        · exact Or.inr ⟨w, by simp [hw], h5⟩

/-- The eight indices: the last seven are pairwise different. -/
theorem c69_select8_partial (n : Nat) (vs vs' : List (BitVec 32)) (ids : List Nat)
    (h : selectProsac8 n vs = some (ids, vs')) :
    ids.length = 8 ∧ ids.tail.Nodup ∧ (∀ i ∈ ids, ∃ v ∈ vs, i = sampleIndex n v) ∧
      (0 < n → n ≤ 16777216 → (∀ v ∈ vs, v.toNat < 4294967168) → ∀ i ∈ ids, i < n) := by
  unfold selectProsac8 at h
  simp only [Option.bind_eq_bind, Option.bind_eq_some_iff, Prod.exists] at h
  obtain ⟨a, v1, h1, h2⟩ := h
  obtain ⟨-, s1, w1, e1, i1, -⟩ := drawUntil_spec _ _ _ _ _ h1
  obtain ⟨r, rfl, hnd, hlen, hm⟩ := select8Loop_spec n a 7 [] v1 ids vs' List.nodup_nil h2
  have hmem : ∀ i ∈ a :: r, ∃ v ∈ vs, i = sampleIndex n v := by
    intro i hi
    rcases List.mem_cons.mp hi with rfl | hi
    · exact ⟨w1, by simp [e1], i1⟩
    · rcases hm i hi with h3 | ⟨w, hw, h3⟩
      · simp at h3
      · exact ⟨w, by simp [e1, hw], h3⟩
  refine ⟨by simp at hlen; simp [hlen], hnd, hmem, ?_⟩
  intro h0 hn hv i hi
  obtain ⟨v, hvm, rfl⟩ := hmem i hi
  exact c69_index_partial n v h0 hn (hv v hvm)

/-- The first index can occur among the other seven. -/
theorem c69_select8_duplicate : ∃ vs vs' ids, (∀ v ∈ vs, v.toNat < 4294967168) ∧
    selectProsac8 10 vs = some (ids, vs') ∧ ¬ ids.Nodup :=
  ⟨[0, 0, 500000000, 1000000000, 1000000001, 1500000000, 2000000000, 2500000000, 3000000000], [],
    [0, 0, 1, 2, 3, 4, 5, 6], by simp, by decide +kernel, by decide⟩

/-- A selection without repetition. -/
example : selectProsac4 10 [0, 0, 1000000000, 1000000000, 2000000000, 3000000000, 7] = some ((0, 2, 4, 6), [7]) := by
  decide +kernel

end Nx
