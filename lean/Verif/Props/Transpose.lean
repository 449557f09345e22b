import Verif.Model.Transpose
import Verif.Lemmas.BitOps

/-! # C37: the in-place transpose -/

namespace Nx

theorem countP_lt_of {α : Type} {p q : α → Bool} : ∀ {l : List α} {a : α}, a ∈ l → p a = true → q a = false →
    (∀ x, q x = true → p x = true) → l.countP q < l.countP p
  | b :: l, a, hm, hp, hq, hi => by
    rw [List.countP_cons, List.countP_cons]
    have hle : ∀ l : List α, l.countP q ≤ l.countP p := fun l => List.countP_mono_left (fun x _ hx => hi x hx)
    rcases List.mem_cons.mp hm with rfl | hm
    · have := hle l
      simp only [hp, hq]
      simp
      omega
    · have := countP_lt_of hm hp hq hi
      by_cases hb : q b = true
      · simp only [hb, hi b hb]
        simp
        omega
      · rw [if_neg hb]
        omega

/-- Where element `i` (not the last) of the column-major m×n matrix goes. -/
def dest (m n i : Nat) : Nat := i * n % (m * n - 1)

section
variable {m n : Nat}

/-- The elements that may move. -/
def Inner (m n j : Nat) : Prop := 1 ≤ j ∧ j < m * n - 1

theorem dest_inv (h : 0 < m * n) {j : Nat} (hj : j < m * n - 1) : dest m n j * m % (m * n - 1) = j := by
  unfold dest
  rw [Nat.mod_mul_mod, Nat.mul_assoc, Nat.mul_comm n m]
  have : j * (m * n) = j + j * (m * n - 1) := by
    have e : m * n = (m * n - 1) + 1 := by omega
    generalize m * n - 1 = Q at e
    rw [e, Nat.mul_add]; omega
  rw [this, Nat.add_mul_mod_self_right, Nat.mod_eq_of_lt hj]

theorem dest_inner {j : Nat} (hj : Inner m n j) : Inner m n (dest m n j) := by
  have hpos : 0 < m * n := by have := hj.2; omega
  refine ⟨?_, Nat.mod_lt _ (by have := hj.1; have := hj.2; omega)⟩
  apply Classical.byContradiction
  intro hc
  have h0 : dest m n j = 0 := by omega
  have := dest_inv hpos hj.2
  rw [h0] at this
  have := hj.1
  simp at *
  omega

theorem dest_inj {j k : Nat} (hj : Inner m n j) (hk : Inner m n k) (h : dest m n j = dest m n k) : j = k := by
  have hpos : 0 < m * n := by have := hj.2; omega
  rw [← dest_inv hpos hj.2, h, dest_inv hpos hk.2]

variable {α : Type}

/-- The marks `bits` and the array `A` while moving elements of `A0`: marked elements
have moved, places nothing moved to are unchanged. -/
structure MoveInv (m n : Nat) (A0 A : List α) (bits : Bytes) : Prop where
  length : A.length = m * n
  bitsLength : bits.length = (m * n + 7) / 8
  val : ∀ j, Inner m n j → arrayBit bits j = true → A[dest m n j]? = A0[j]?
  old : ∀ j, (∀ p, Inner m n p → arrayBit bits p = true → dest m n p ≠ j) → A[j]? = A0[j]?

/-- The marks consist of complete cycles. -/
def Closed (m n : Nat) (bits : Bytes) : Prop :=
  ∀ j, Inner m n j → (arrayBit bits j = true ↔ arrayBit bits (dest m n j) = true)

theorem cycleLoop_ok (A0 : List α) (s : Nat) (hs : Inner m n s) (hns : s ≠ dest m n s) :
    ∀ (fuel : Nat) (A : List α) (bits : Bytes) (idx0 : Nat) (t0 : α),
      (List.range (m * n)).countP (fun j => !arrayBit bits j) ≤ fuel →
      MoveInv m n A0 A bits →
      Inner m n idx0 → arrayBit bits idx0 = false → A0[idx0]? = some t0 → A0.length = m * n →
      (∀ j, Inner m n j → arrayBit bits (dest m n j) = true → arrayBit bits j = true ∨ dest m n j = s) →
      (∀ j, Inner m n j → arrayBit bits j = true → arrayBit bits (dest m n j) = true ∨ dest m n j = idx0) →
      (idx0 = s ∨ arrayBit bits s = true) →
      (idx0 = s ∨ ∃ p, Inner m n p ∧ arrayBit bits p = true ∧ dest m n p = idx0) →
      ∃ A' bits', cycleLoop n (m * n) s fuel A bits idx0 (dest m n idx0) t0 = .ok (A', bits') ∧
        MoveInv m n A0 A' bits' ∧ Closed m n bits' ∧ arrayBit bits' s = true ∧
        ∀ j, j < m * n → arrayBit bits j = true → arrayBit bits' j = true := by
  intro fuel
  induction fuel with
  | zero =>
    intro A bits idx0 t0 hf _ hi hb
    exfalso
    have : 0 < (List.range (m * n)).countP (fun j => !arrayBit bits j) := by
      rw [List.countP_pos_iff]
      refine ⟨idx0, ?_, by simp [hb]⟩
      rw [List.mem_range]
      have := hi.2
      omega
    omega
  | succ fuel ih =>
    intro A bits idx0 t0 hf hM hi hb ht0 hA0 hpred hsucc hstart hcome
    have hd := dest_inner hi
    have hlt : dest m n idx0 < A.length := by rw [hM.length]; have := hd.2; omega
    have hAd : A[dest m n idx0]? = A0[dest m n idx0]? := by
      apply hM.old
      intro p hp hpm he
      have := dest_inj hp hi he
      subst this
      rw [hb] at hpm; cases hpm
    obtain ⟨bits', b1, b2, b3⟩ := bitArraySet_ok bits idx0 true (by
      rw [hM.bitsLength]; have := hi.2; omega)
    have hbit : ∀ j, j < m * n → (arrayBit bits' j = true ↔ j = idx0 ∨ arrayBit bits j = true) := by
      intro j hj
      rw [b3 j (by rw [hM.bitsLength]; omega)]
      unfold setBit
      by_cases hji : j = idx0 <;> simp [hji]
    have hin : ∀ {j}, Inner m n j → j < m * n := by intro j hj; have := hj.2; omega
    have hM' : MoveInv m n A0 (A.set (dest m n idx0) t0) bits' := by
      refine ⟨by simpa using hM.length, by rw [b2]; exact hM.bitsLength, ?_, ?_⟩
      · intro j hj hm
        rw [hbit j (hin hj)] at hm
        by_cases hji : j = idx0
        · subst hji
          rw [List.getElem?_set_self hlt, ht0]
        · have hm : arrayBit bits j = true := by rcases hm with h | h; exact absurd h hji; exact h
          rw [List.getElem?_set_ne (fun he => hji (dest_inj hj hi he.symm))]
          exact hM.val j hj hm
      · intro j hj
        have h1 : dest m n idx0 ≠ j := hj idx0 hi ((hbit idx0 (hin hi)).mpr (Or.inl rfl))
        rw [List.getElem?_set_ne h1]
        exact hM.old j (fun p hp hpm => hj p hp ((hbit p (hin hp)).mpr (Or.inr hpm)))
    unfold cycleLoop
    rw [readAt_ok hlt]
    simp only [Res.ok_bind]
    rw [writeAt_ok _ hlt]
    simp only [Res.ok_bind]
    rw [b1]
    simp only [Res.ok_bind]
    have hs' : arrayBit bits' s = true := by
      rw [hbit s (hin hs)]
      rcases hstart with h | h
      · exact Or.inl h.symm
      · exact Or.inr h
    by_cases hend : dest m n idx0 ≠ s
    · rw [if_pos hend]
      have hcnt : (List.range (m * n)).countP (fun j => !arrayBit bits' j) <
          (List.range (m * n)).countP (fun j => !arrayBit bits j) := by
        have e : ∀ b : Bytes, (List.range (m * n)).countP (fun j => !arrayBit b j)
            = (List.range (m * n)).countP (fun j => decide (j < m * n) && !arrayBit b j) := by
          intro b
          apply List.countP_congr
          intro j hj
          rw [List.mem_range] at hj
          simp [hj]
        rw [e bits', e bits]
        refine countP_lt_of (a := idx0) (List.mem_range.mpr (hin hi)) (by simp [hin hi, hb])
          (by simp [(hbit idx0 (hin hi)).mpr (Or.inl rfl)]) ?_
        intro x hx
        simp only [Bool.and_eq_true, decide_eq_true_eq, Bool.not_eq_true'] at hx ⊢
        refine ⟨hx.1, ?_⟩
        cases hc : arrayBit bits x with
        | false => rfl
        | true =>
          have := (hbit x hx.1).mpr (Or.inr hc)
          rw [this] at hx; exact absurd hx.2 (by simp)
      obtain ⟨t1, ht1⟩ : ∃ t1, A0[dest m n idx0]? = some t1 := ⟨_, List.getElem?_eq_getElem (by rw [hA0]; exact hin hd)⟩
      have hval : A[dest m n idx0] = t1 := by
        have := List.getElem?_eq_getElem hlt
        rw [hAd, ht1] at this
        exact (Option.some.inj this).symm
      rw [hval]
      have hunm : arrayBit bits' (dest m n idx0) = false := by
        cases hc : arrayBit bits' (dest m n idx0) with
        | false => rfl
        | true =>
          exfalso
          rcases (hbit _ (hin hd)).mp hc with h | h
          · rcases hcome with h2 | ⟨p, p1, p2, p3⟩
            · rw [h2] at h; exact hns h.symm
            · have : p = idx0 := dest_inj p1 hi (by rw [p3, h])
              rw [this, hb] at p2; cases p2
          · rcases hpred idx0 hi h with h2 | h2
            · rw [hb] at h2; cases h2
            · exact hend h2
      obtain ⟨A', bits'', g1, g2, g3, g4, g5⟩ := ih (A.set (dest m n idx0) t0) bits' (dest m n idx0) t1 (by omega) hM' hd
        hunm ht1 hA0 (by
          intro j hj hm
          rw [hbit j (hin hj)]
          rcases (hbit _ (hin (dest_inner hj))).mp hm with h | h
          · rcases hcome with h2 | ⟨p, p1, p2, p3⟩
            · right; rw [h, h2]
            · have : p = j := dest_inj p1 hj (by rw [p3, h])
              left; right; rw [← this]; exact p2
          · rcases hpred j hj h with h2 | h2
            · exact Or.inl (Or.inr h2)
            · exact Or.inr h2) (by
          intro j hj hm
          rw [hbit _ (hin (dest_inner hj))]
          rcases (hbit _ (hin hj)).mp hm with h | h
          · right; rw [h]
          · rcases hsucc j hj h with h2 | h2
            · exact Or.inl (Or.inr h2)
            · exact Or.inl (Or.inl h2)) (Or.inr hs')
        (Or.inr ⟨idx0, hi, (hbit idx0 (hin hi)).mpr (Or.inl rfl), rfl⟩)
      exact ⟨A', bits'', g1, g2, g3, g4, fun j hj hm => g5 j hj ((hbit j hj).mpr (Or.inr hm))⟩
    · rw [if_neg hend]
      have hend : dest m n idx0 = s := Classical.not_not.mp hend
      refine ⟨_, bits', rfl, hM', ?_, hs', fun j hj hm => (hbit j hj).mpr (Or.inr hm)⟩
      intro j hj
      rw [hbit j (hin hj), hbit _ (hin (dest_inner hj))]
      constructor
      · rintro (h | h)
        · subst h
          rw [hend]
          rcases hstart with h2 | h2
          · exact Or.inl h2.symm
          · exact Or.inr h2
        · rcases hsucc j hj h with h2 | h2
          · exact Or.inr h2
          · exact Or.inl h2
      · rintro (h | h)
        · rcases hcome with h2 | ⟨p, p1, p2, p3⟩
          · left
            exact dest_inj hj hi (h.trans (h2.trans hend.symm))
          · right
            rw [← dest_inj p1 hj (by rw [p3, h])]; exact p2
        · rcases hpred j hj h with h2 | h2
          · exact Or.inr h2
          · left
            exact dest_inj hj hi (by rw [h2, hend])

theorem transposeLoop_ok (A0 : List α) (hA0 : A0.length = m * n) :
    ∀ (k i : Nat) (A : List α) (bits : Bytes), k = m * n - 1 - i → 1 ≤ i →
      MoveInv m n A0 A bits → Closed m n bits →
      (∀ j, Inner m n j → j < i → arrayBit bits j = true ∨ dest m n j = j) →
      ∃ A', transposeLoop n (m * n) i A bits = .ok A' ∧ A'.length = m * n ∧
        (∀ j, Inner m n j → A'[dest m n j]? = A0[j]?) ∧ (∀ j, ¬ Inner m n j → A'[j]? = A0[j]?) := by
  intro k
  induction k with
  | zero =>
    intro i A bits hk hi hM hC hdone
    rw [transposeLoop, if_neg (by omega)]
    refine ⟨A, rfl, hM.length, ?_, ?_⟩
    · intro j hj
      rcases hdone j hj (by have := hj.2; omega) with h | h
      · exact hM.val j hj h
      · rw [h]
        by_cases hm : arrayBit bits j = true
        · have := hM.val j hj hm
          rwa [h] at this
        · apply hM.old
          intro p hp hpm he
          have : p = j := dest_inj hp hj (by rw [he, h])
          rw [this] at hpm; exact hm hpm
    · intro j hj
      apply hM.old
      intro p hp _ he
      exact hj (he ▸ dest_inner hp)
  | succ k ih =>
    intro i A bits hk hi hM hC hdone
    have hI : Inner m n i := ⟨hi, by omega⟩
    have step : ∃ A' bits', transposeStep n (m * n) i A bits = .ok (A', bits') ∧ MoveInv m n A0 A' bits' ∧
        Closed m n bits' ∧ (∀ j, Inner m n j → j < i + 1 → arrayBit bits' j = true ∨ dest m n j = j) := by
      unfold transposeStep
      obtain ⟨b, e1, e2⟩ := bitArrayGet_ok bits i (by rw [hM.bitsLength]; omega)
      rw [e1]
      simp only [Res.ok_bind]
      by_cases hb : b = 0
      · rw [if_pos hb]
        have hun : arrayBit bits i = false := by
          cases hc : arrayBit bits i with
          | false => rfl
          | true => exact absurd hb (e2.mpr hc)
        by_cases hfix : i ≠ i * n % (m * n - 1)
        · rw [if_pos hfix, readAt_ok (by rw [hM.length]; omega)]
          simp only [Res.ok_bind]
          have hAi : A[i]? = A0[i]? := by
            apply hM.old
            intro p hp hpm he
            have := (hC p hp).mp hpm
            rw [he, hun] at this; cases this
          have hlt : i < A.length := by rw [hM.length]; omega
          obtain ⟨A', bits', g1, g2, g3, g4, g5⟩ := cycleLoop_ok A0 i hI hfix (m * n) A bits i A[i] (by
              have := List.countP_le_length (p := fun j => !arrayBit bits j) (l := List.range (m * n))
              simpa using this) hM hI hun (by rw [← hAi, List.getElem?_eq_getElem hlt]) hA0
            (fun j hj h => Or.inl ((hC j hj).mpr h)) (fun j hj h => Or.inl ((hC j hj).mp h)) (Or.inl rfl) (Or.inl rfl)
          refine ⟨A', bits', g1, g2, g3, ?_⟩
          intro j hj hji
          by_cases h : j = i
          · rw [h]; exact Or.inl g4
          · rcases hdone j hj (by omega) with h | h
            · exact Or.inl (g5 j (by have := hj.2; omega) h)
            · exact Or.inr h
        · rw [if_neg hfix]
          refine ⟨A, bits, rfl, hM, hC, ?_⟩
          intro j hj hji
          by_cases h : j = i
          · subst h
            exact Or.inr (Classical.not_not.mp hfix).symm
          · exact hdone j hj (by omega)
      · rw [if_neg hb]
        refine ⟨A, bits, rfl, hM, hC, ?_⟩
        intro j hj hji
        by_cases h : j = i
        · rw [h]; exact Or.inl (e2.mp hb)
        · exact hdone j hj (by omega)
    obtain ⟨A', bits', s1, s2, s3, s4⟩ := step
    rw [transposeLoop, if_pos (by omega), s1]
    simp only [Res.ok_bind]
    exact ih (i + 1) A' bits' (by omega) (by omega) s2 s3 s4

theorem arrayBit_new (q j : Nat) : arrayBit (bitArrayNewZero q) j = false := by
  unfold arrayBit bitArrayNewZero
  rw [List.getElem?_replicate]
  split
  · rename_i b h
    split at h
    · cases h; simp
    · cases h
  · rfl

end

theorem entry_lt {m n r c : Nat} (hr : r < m) (hc : c < n) : c * m + r < m * n := by
  have : (c + 1) * m ≤ n * m := Nat.mul_le_mul_right m hc
  rw [Nat.add_mul, Nat.mul_comm n m] at this
  omega

/-- C37: the transpose of a column-major m×n matrix (entry (r,c) at c·m+r) leaves the
n×m matrix with the entry (c,r), at r·n+c, equal to the former entry (r,c). -/
theorem c37_transpose {α : Type} (m n : Nat) (hm : 0 < m) (hn : 0 < n) (hq : m * n ≤ 2147483647)
    (A : List α) (hA : A.length = m * n) :
    ∃ A', transpose m n A = .ok A' ∧ A'.length = n * m ∧
      ∀ r c, r < m → c < n → A'[r * n + c]? = A[c * m + r]? := by
  have hpos : 0 < m * n := Nat.mul_pos hm hn
  unfold transpose
  rw [if_pos hm, if_pos hn, if_pos hq]
  obtain ⟨A', g1, g2, g3, g4⟩ := transposeLoop_ok A hA _ 1 A (bitArrayNewZero (m * n)) rfl (Nat.le_refl 1)
    ⟨hA, by simp [bitArrayNewZero], fun j _ h => absurd h (by rw [arrayBit_new]; simp), fun _ _ => rfl⟩
    (fun j _ => by rw [arrayBit_new, arrayBit_new]) (fun j hj hlt => by have := hj.1; omega)
  refine ⟨A', g1, by rw [g2, Nat.mul_comm], ?_⟩
  intro r c hr hc
  have hlt := entry_lt hr hc
  have hlt2 : r * n + c < m * n := by rw [Nat.mul_comm m n]; exact entry_lt hc hr
  have key : (c * m + r) * n = (r * n + c) + c * (m * n - 1) := by
    have e : m * n = (m * n - 1) + 1 := by omega
    rw [Nat.add_mul, Nat.mul_assoc]
    generalize hQ : m * n - 1 = Q at e
    rw [e, Nat.mul_add]; omega
  by_cases hin : Inner m n (c * m + r)
  · have hd : dest m n (c * m + r) = (r * n + c) % (m * n - 1) := by
      unfold dest
      rw [key, Nat.add_mul_mod_self_right]
    have hd2 : dest m n (c * m + r) = r * n + c := by
      have h1 := dest_inner hin
      rw [hd]
      by_cases he : r * n + c < m * n - 1
      · exact Nat.mod_eq_of_lt he
      · have : r * n + c = m * n - 1 := by omega
        rw [hd, this, Nat.mod_self] at h1
        exact absurd h1.1 (by omega)
    rw [← hd2]
    exact g3 _ hin
  · have hends : c * m + r = 0 ∨ c * m + r = m * n - 1 := by
      unfold Inner at hin; omega
    rcases hends with h0 | h0
    · have hr0 : r = 0 := by omega
      have hc0 : c = 0 := by
        have : c * m = 0 := by omega
        rcases Nat.mul_eq_zero.mp this with h | h <;> omega
      subst hr0; subst hc0
      simp only [Nat.zero_mul, Nat.zero_add]
      refine g4 0 ?_
      unfold Inner; omega
    · have hc1 : c = n - 1 ∧ r = m - 1 := by
        have h2 : c * m ≤ (n - 1) * m := Nat.mul_le_mul_right m (by omega)
        have h3 : (n - 1) * m = m * n - m := by rw [Nat.sub_mul, Nat.one_mul, Nat.mul_comm]
        have h4 : m ≤ m * n := Nat.le_mul_of_pos_right m hn
        have h5 : r = m - 1 := by omega
        refine ⟨?_, h5⟩
        have h6 : c * m = (n - 1) * m := by omega
        exact Nat.eq_of_mul_eq_mul_right hm h6
      have e : r * n + c = m * n - 1 := by
        rw [hc1.1, hc1.2, Nat.sub_mul, Nat.one_mul]
        have h4 : n ≤ m * n := Nat.le_mul_of_pos_left n hm
        omega
      rw [e, h0]
      refine g4 _ ?_
      unfold Inner; omega

/-- C37: transposing twice restores the matrix. -/
theorem c37_twice {α : Type} (m n : Nat) (hm : 0 < m) (hn : 0 < n) (hq : m * n ≤ 2147483647)
    (A : List α) (hA : A.length = m * n) :
    (transpose m n A >>= fun A' => transpose n m A') = .ok A := by
  obtain ⟨A', a1, a2, a3⟩ := c37_transpose m n hm hn hq A hA
  rw [a1]
  simp only [Res.ok_bind]
  obtain ⟨A'', b1, b2, b3⟩ := c37_transpose n m hn hm (by rw [Nat.mul_comm]; exact hq) A' a2
  rw [b1]
  congr 1
  apply List.ext_getElem?
  intro i
  by_cases hi : i < m * n
  · have h1 : i = (i / m) * m + i % m := by
      rw [Nat.mul_comm]; exact (Nat.div_add_mod i m).symm
    have hc : i / m < n := Nat.div_lt_of_lt_mul hi
    have hr : i % m < m := Nat.mod_lt _ hm
    rw [h1, b3 (i / m) (i % m) hc hr, a3 (i % m) (i / m) hr hc]
  · rw [List.getElem?_eq_none (by omega), List.getElem?_eq_none (by omega)]

example : transpose 2 3 [1, 2, 3, 4, 5, 6] = .ok [1, 3, 5, 2, 4, 6] := by decide +kernel

end Nx
