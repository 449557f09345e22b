import Verif.Model.CNum

/-!
# Lemmas about numbers in text
-/

namespace Nx

theorem digitByte_toNat {d : Nat} (h : d < 10) : (UInt8.ofNat (48 + d)).toNat = 48 + d := by
  simp [UInt8.toNat_ofNat']
  omega

theorem digitVal_digit {d : Nat} (h : d < 10) : digitVal (UInt8.ofNat (48 + d)) = some d := by
  unfold digitVal
  rw [digitByte_toNat h, if_pos (by omega)]
  simp

theorem isDigitB_digit {d base : Nat} (h : d < 10) (hb : d < base) :
    isDigitB base (UInt8.ofNat (48 + d)) = true := by
  unfold isDigitB
  rw [digitVal_digit h]
  simpa using hb

theorem digitsVal_append (base : Nat) : ∀ (l1 l2 : Bytes) (acc : Nat),
    digitsVal base acc (l1 ++ l2) = digitsVal base (digitsVal base acc l1) l2
  | [], _, _ => rfl
  | b :: l1, l2, acc => by
    simp only [List.cons_append, digitsVal]
    exact digitsVal_append base l1 l2 _

theorem digitsVal_natText (n : Nat) : digitsVal 10 0 (natText n) = n := by
  induction n using Nat.strongRecOn with
  | _ n ih =>
    rw [natText]
    split
    · rename_i h
      simp only [digitsVal, digitVal_digit h]
      omega
    · rename_i h
      rw [digitsVal_append, ih (n / 10) (by omega)]
      simp only [digitsVal, digitVal_digit (show n % 10 < 10 by omega)]
      exact Nat.div_add_mod' n 10

theorem natText_digits (n : Nat) : natText n ≠ [] ∧
    ∀ b ∈ natText n, ∃ d, d < 10 ∧ b = UInt8.ofNat (48 + d) := by
  induction n using Nat.strongRecOn with
  | _ n ih =>
    rw [natText]
    split
    · rename_i h
      exact ⟨by simp, fun b hb => ⟨n, h, by simpa using hb⟩⟩
    · rename_i h
      refine ⟨by simp, fun b hb => ?_⟩
      rw [List.mem_append] at hb
      rcases hb with hb | hb
      · exact (ih (n / 10) (by omega)).2 b hb
      · exact ⟨n % 10, by omega, by simpa using hb⟩

/-- No leading zero, except for zero itself. -/
theorem natText_head (n : Nat) : n = 0 ∨ (natText n).head? ≠ some 48 := by
  induction n using Nat.strongRecOn with
  | _ n ih =>
    rw [natText]
    split
    · rename_i h
      by_cases h0 : n = 0
      · exact Or.inl h0
      · right
        intro e
        have e : (UInt8.ofNat (48 + n)) = 48 := by simpa using e
        have := congrArg UInt8.toNat e
        rw [digitByte_toNat h] at this
        simp at this
        omega
    · rename_i h
      right
      rcases ih (n / 10) (by omega) with h0 | h0
      · omega
      · have := (natText_digits (n / 10)).1
        cases hx : natText (n / 10) with
        | nil => exact absurd hx this
        | cons b r => rw [hx] at h0; simpa using h0

theorem natText_zero : natText 0 = [48] := by rw [natText]; rfl

theorem takeWhile_all {α : Type} {p : α → Bool} : ∀ {l : List α}, (∀ x ∈ l, p x = true) → l.takeWhile p = l
  | [], _ => rfl
  | a :: l, h => by
    rw [List.takeWhile_cons, if_pos (h a (by simp)), takeWhile_all (fun x hx => h x (by simp [hx]))]

theorem dropWhile_all {α : Type} {p : α → Bool} : ∀ {l : List α}, (∀ x ∈ l, p x = true) → l.dropWhile p = []
  | [], _ => rfl
  | a :: l, h => by
    rw [List.dropWhile_cons, if_pos (h a (by simp)), dropWhile_all (fun x hx => h x (by simp [hx]))]

/-- The text behind white space and sign. -/
def numBody (s : Bytes) : Bytes := (takeSign (s.dropWhile isSpaceB)).2

theorem intText_parts (v : Int) :
    takeSign ((intText v).dropWhile isSpaceB) = (decide (v < 0), natText v.natAbs) := by
  obtain ⟨h1, h2⟩ := natText_digits v.natAbs
  unfold intText
  split
  · rename_i h
    rw [List.dropWhile_cons, if_neg (by decide)]
    simp [takeSign, h]
  · rename_i h
    cases hx : natText v.natAbs with
    | nil => exact absurd hx h1
    | cons b r =>
      obtain ⟨d, hd, hb⟩ := h2 b (by rw [hx]; simp)
      have ht : b.toNat = 48 + d := by rw [hb]; exact digitByte_toNat hd
      have hsp : isSpaceB b = false := by
        unfold isSpaceB
        rw [ht]
        simp
        omega
      rw [List.dropWhile_cons, if_neg (by rw [hsp]; simp)]
      unfold takeSign
      split
      · rename_i heq; cases heq; simp at ht; omega
      · rename_i heq; cases heq; simp at ht; omega
      · simp [h]

theorem numBody_intText (v : Int) : numBody (intText v) = natText v.natAbs := by
  unfold numBody; rw [intText_parts]

theorem isDigitB_of_mem_natText {n : Nat} {b : Byte} (hb : b ∈ natText n) : isDigitB 10 b = true := by
  obtain ⟨d, hd, rfl⟩ := (natText_digits n).2 b hb
  exact isDigitB_digit hd hd

/-- Decimal printing and reading. -/
theorem strtol_intText (v : Int) : strtol 10 (intText v) = (clampLong v, []) := by
  unfold strtol
  rw [intText_parts]
  obtain ⟨h1, _⟩ := natText_digits v.natAbs
  have hb : strtolBase 10 (natText v.natAbs) = (10, natText v.natAbs) := by
    unfold strtolBase
    rw [if_neg (by simp), if_neg (by simp)]
  simp only [hb]
  rw [takeWhile_all (fun x hx => isDigitB_of_mem_natText hx), if_neg h1, digitsVal_natText,
    dropWhile_all (fun x hx => isDigitB_of_mem_natText hx)]
  have : (if decide (v < 0) = true then -(v.natAbs : Int) else (v.natAbs : Int)) = v := by
    by_cases h : v < 0
    · rw [if_pos (by simpa using h)]; omega
    · rw [if_neg (by simpa using h)]; omega
  rw [this]

theorem clampLong_of {v : Int} (h1 : -9223372036854775808 ≤ v) (h2 : v ≤ 9223372036854775807) :
    clampLong v = v := by
  unfold clampLong
  rw [if_neg (by omega), if_neg (by omega)]

theorem atoi_intText {v : Int} (h : InI32 v) : atoi (intText v) = .ok v := by
  unfold atoi
  simp only [strtol_intText]
  rw [clampLong_of (by omega) (by omega), if_pos h]

/-- Without a leading zero the base 0 means decimal. -/
theorem strtol_zero_ten {s : Bytes} (h : (numBody s).head? ≠ some 48) : strtol 0 s = strtol 10 s := by
  unfold numBody at h
  unfold strtol
  have hp : hexPrefix (takeSign (s.dropWhile isSpaceB)).2 = false := by
    generalize (takeSign (s.dropWhile isSpaceB)).2 = x at h
    unfold hexPrefix
    split
    · simp at h
    · rfl
  have e : strtolBase 0 (takeSign (s.dropWhile isSpaceB)).2 = strtolBase 10 (takeSign (s.dropWhile isSpaceB)).2 := by
    unfold strtolBase
    rw [hp]
    simp [h]
  simp only [e]

theorem strtol_zero_zero {s : Bytes} (h : numBody s = [48]) : strtol 0 s = strtol 10 s := by
  unfold numBody at h
  unfold strtol
  have e1 : strtolBase 0 [48] = (8, [48]) := by decide
  have e2 : strtolBase 10 [48] = (10, [48]) := by decide
  have e3 : List.takeWhile (isDigitB 8) [48] = [48] := by decide
  have e4 : List.takeWhile (isDigitB 10) [48] = [48] := by decide
  have e5 : List.dropWhile (isDigitB 8) [48] = [] := by decide
  have e6 : List.dropWhile (isDigitB 10) [48] = [] := by decide
  simp only [h, e1, e2, e3, e4, e5, e6]
  rfl

theorem strtol_zero_intText (v : Int) : strtol 0 (intText v) = (clampLong v, []) := by
  rw [← strtol_intText]
  rcases natText_head v.natAbs with h | h
  · apply strtol_zero_zero
    rw [numBody_intText, h, natText_zero]
  · apply strtol_zero_ten
    rw [numBody_intText]
    exact h

end Nx
