import Verif.Model.BitOps
import Verif.Spec.BitOps

/-!
# Helper lemmas: SWAR bit counting over natural numbers, bytes of words
-/

namespace Nx

/-- Mask with `m` groups of `2k` bits of which the low `k` are ones. -/
def gmask (k : Nat) : Nat → Nat
  | 0 => 0
  | m + 1 => gmask k m * 2 ^ (2 * k) + (2 ^ k - 1)

/-- One SWAR step. -/
def gstep (k m x : Nat) : Nat := (x &&& gmask k m) + ((x >>> k) &&& gmask k m)

/-- Sum of the lowest `m` base-`2^k` digits. -/
def dsum (k : Nat) : Nat → Nat → Nat
  | 0, _ => 0
  | m + 1, x => x % 2 ^ k + dsum k m (x / 2 ^ k)

theorem and_split (n q r q' r' : Nat) (h : r < 2 ^ n) (h' : r' < 2 ^ n) :
    (q * 2 ^ n + r) &&& (q' * 2 ^ n + r') = (q &&& q') * 2 ^ n + (r &&& r') := by
  have hrr : r &&& r' < 2 ^ n := Nat.and_lt_two_pow _ h'
  apply Nat.eq_of_testBit_eq
  intro i
  rw [Nat.testBit_and]
  rw [Nat.mul_comm q, Nat.mul_comm q', Nat.mul_comm (q &&& q')]
  rw [Nat.testBit_two_pow_mul_add _ h, Nat.testBit_two_pow_mul_add _ h',
    Nat.testBit_two_pow_mul_add _ hrr]
  split
  · rw [Nat.testBit_and]
  · rw [Nat.testBit_and]

theorem pow_two_mul_self (k : Nat) : 2 ^ (2 * k) = 2 ^ k * 2 ^ k := by
  rw [← Nat.pow_add]; congr 1; omega

theorem gstep_succ (k m q r : Nat) (hr : r < 2 ^ (2 * k)) :
    gstep k (m + 1) (q * 2 ^ (2 * k) + r) =
      gstep k m q * 2 ^ (2 * k) + (r % 2 ^ k + r / 2 ^ k) := by
  have hk : 0 < 2 ^ k := Nat.two_pow_pos k
  have h2 := pow_two_mul_self k
  have hm : 2 ^ k - 1 < 2 ^ (2 * k) := by
    have : 2 ^ k ≤ 2 ^ (2 * k) := Nat.pow_le_pow_right (by omega) (by omega)
    omega
  have e1 : (q * 2 ^ (2 * k) + r) &&& gmask k (m + 1) = (q &&& gmask k m) * 2 ^ (2 * k) + r % 2 ^ k := by
    rw [gmask, and_split _ _ _ _ _ hr hm, Nat.and_two_pow_sub_one_eq_mod]
  have hrk : r / 2 ^ k < 2 ^ k := by
    rw [Nat.div_lt_iff_lt_mul hk, ← h2]; exact hr
  have e2 : ((q * 2 ^ (2 * k) + r) >>> k) &&& gmask k (m + 1) =
      ((q >>> k) &&& gmask k m) * 2 ^ (2 * k) + r / 2 ^ k := by
    have hs : (q * 2 ^ (2 * k) + r) >>> k = (q >>> k) * 2 ^ (2 * k) + ((q % 2 ^ k) * 2 ^ k + r / 2 ^ k) := by
      rw [Nat.shiftRight_eq_div_pow, Nat.shiftRight_eq_div_pow]
      have : (q * 2 ^ (2 * k) + r) / 2 ^ k = q * 2 ^ k + r / 2 ^ k := by
        rw [h2, ← Nat.mul_assoc, Nat.add_comm, Nat.add_mul_div_right _ _ hk, Nat.add_comm]
      rw [this]
      have hq := Nat.div_add_mod q (2 ^ k)
      calc q * 2 ^ k + r / 2 ^ k
          = (2 ^ k * (q / 2 ^ k) + q % 2 ^ k) * 2 ^ k + r / 2 ^ k := by rw [hq]
        _ = q / 2 ^ k * 2 ^ (2 * k) + (q % 2 ^ k * 2 ^ k + r / 2 ^ k) := by
            rw [h2, Nat.add_mul, Nat.mul_comm (2 ^ k) (q / 2 ^ k), Nat.mul_assoc, Nat.add_assoc]
    have hqm : q % 2 ^ k < 2 ^ k := Nat.mod_lt _ hk
    have hlow : (q % 2 ^ k) * 2 ^ k + r / 2 ^ k < 2 ^ (2 * k) := by
      rw [h2]
      calc (q % 2 ^ k) * 2 ^ k + r / 2 ^ k < (q % 2 ^ k) * 2 ^ k + 2 ^ k := by omega
        _ = (q % 2 ^ k + 1) * 2 ^ k := by rw [Nat.add_mul, Nat.one_mul]
        _ ≤ 2 ^ k * 2 ^ k := Nat.mul_le_mul_right _ (by omega)
    rw [hs, gmask, and_split _ _ _ _ _ hlow hm, Nat.and_two_pow_sub_one_eq_mod,
      Nat.add_comm (q % 2 ^ k * 2 ^ k), Nat.add_mul_mod_self_right, Nat.mod_eq_of_lt hrk]
  unfold gstep
  rw [e1, e2, Nat.add_mul]
  omega

theorem chunk_lt (k r : Nat) (hk : 0 < k) (hr : r < 2 ^ (2 * k)) :
    r % 2 ^ k + r / 2 ^ k < 2 ^ (2 * k) := by
  have h2 := pow_two_mul_self k
  have hp : 0 < 2 ^ k := Nat.two_pow_pos k
  have h1 : r % 2 ^ k < 2 ^ k := Nat.mod_lt _ hp
  have h3 : r / 2 ^ k < 2 ^ k := by
    rw [Nat.div_lt_iff_lt_mul hp, ← h2]; exact hr
  have h4 : 2 ≤ 2 ^ k := by
    calc 2 = 2 ^ 1 := rfl
      _ ≤ 2 ^ k := Nat.pow_le_pow_right (by omega) hk
  have h5 : 2 * 2 ^ k ≤ 2 ^ k * 2 ^ k := Nat.mul_le_mul_right _ h4
  omega

theorem dsum_gstep (k m : Nat) (hk : 0 < k) (x : Nat) :
    dsum (2 * k) m (gstep k m x) = dsum k (2 * m) x := by
  induction m generalizing x with
  | zero => rfl
  | succ m ih =>
    have hp : 0 < 2 ^ (2 * k) := Nat.two_pow_pos _
    have hr := Nat.mod_lt x hp
    have hx : x = x / 2 ^ (2 * k) * 2 ^ (2 * k) + x % 2 ^ (2 * k) := by
      rw [Nat.mul_comm]; exact (Nat.div_add_mod _ _).symm
    have hs := gstep_succ k m (x / 2 ^ (2 * k)) (x % 2 ^ (2 * k)) hr
    rw [← hx] at hs
    have hc := chunk_lt k _ hk hr
    rw [dsum, hs, Nat.add_comm (gstep k m _ * _), Nat.add_mul_mod_self_right,
      Nat.add_mul_div_right _ _ hp, Nat.mod_eq_of_lt hc, Nat.div_eq_of_lt hc, Nat.zero_add, ih]
    rw [show 2 * (m + 1) = 2 * m + 1 + 1 by omega, dsum, dsum]
    have h2 := pow_two_mul_self k
    have e1 : x % 2 ^ (2 * k) % 2 ^ k = x % 2 ^ k := by
      rw [h2, Nat.mod_mul_left_mod]
    have e2 : x % 2 ^ (2 * k) / 2 ^ k = x / 2 ^ k % 2 ^ k := by
      rw [h2, Nat.mod_mul_right_div_self]
    have e3 : x / 2 ^ (2 * k) = x / 2 ^ k / 2 ^ k := by
      rw [h2, Nat.div_div_eq_div_mul]
    rw [e1, e2, e3]
    omega

theorem gstep_lt (k m : Nat) (hk : 0 < k) (x : Nat) : gstep k m x < 2 ^ (2 * k * m) := by
  induction m generalizing x with
  | zero => simp [gstep, gmask]
  | succ m ih =>
    have hp : 0 < 2 ^ (2 * k) := Nat.two_pow_pos _
    have hr := Nat.mod_lt x hp
    have hx : x = x / 2 ^ (2 * k) * 2 ^ (2 * k) + x % 2 ^ (2 * k) := by
      rw [Nat.mul_comm]; exact (Nat.div_add_mod _ _).symm
    have hs := gstep_succ k m (x / 2 ^ (2 * k)) (x % 2 ^ (2 * k)) hr
    rw [← hx] at hs
    have hc := chunk_lt k _ hk hr
    have := ih (x / 2 ^ (2 * k))
    rw [hs, Nat.mul_succ, Nat.pow_add]
    calc gstep k m (x / 2 ^ (2 * k)) * 2 ^ (2 * k) + (x % 2 ^ (2 * k) % 2 ^ k + x % 2 ^ (2 * k) / 2 ^ k)
        < gstep k m (x / 2 ^ (2 * k)) * 2 ^ (2 * k) + 2 ^ (2 * k) := by omega
      _ = (gstep k m (x / 2 ^ (2 * k)) + 1) * 2 ^ (2 * k) := by rw [Nat.add_mul, Nat.one_mul]
      _ ≤ 2 ^ (2 * k * m) * 2 ^ (2 * k) := Nat.mul_le_mul_right _ this

theorem dsum_one_eq (w : Nat) (n : Nat) :
    dsum 1 w n = (List.range w).countP (fun i => n.testBit i) := by
  induction w generalizing n with
  | zero => rfl
  | succ w ih =>
    rw [dsum, ih, List.range_succ_eq_map, List.countP_cons, List.countP_map]
    have h0 : n.testBit 0 = decide (n % 2 = 1) := Nat.testBit_zero n
    have hs : ((fun i => n.testBit i) ∘ Nat.succ) = (fun i => (n / 2).testBit i) := by
      funext i
      simp [Nat.testBit_succ]
    rw [hs]
    simp only [Nat.pow_one]
    have := Nat.mod_two_eq_zero_or_one n
    rcases this with h | h <;> simp [h0, h] <;> omega

theorem onesCount_eq {w : Nat} (x : BitVec w) : onesCount x = dsum 1 w x.toNat := by
  rw [dsum_one_eq]
  rfl

theorem count32_toNat (x : BitVec 32) (c k m : Nat) (hk : 2 ^ c = k) (hpos : 0 < k)
    (hm : mask32 c = BitVec.ofNat 32 (gmask k m)) (hlt : gmask k m < 2 ^ 32)
    (hw : 2 * k * m = 32) :
    (count32 x c).toNat = gstep k m x.toNat := by
  unfold count32
  have hl := gstep_lt k m hpos x.toNat
  rw [hw] at hl
  rw [hm, BitVec.toNat_add, BitVec.toNat_and, BitVec.toNat_and, BitVec.toNat_ushiftRight,
    BitVec.toNat_ofNat, Nat.mod_eq_of_lt hlt, hk]
  exact Nat.mod_eq_of_lt hl

theorem count64_toNat (x : BitVec 64) (c k m : Nat) (hk : 2 ^ c = k) (hpos : 0 < k)
    (hm : mask64 c = BitVec.ofNat 64 (gmask k m)) (hlt : gmask k m < 2 ^ 64)
    (hw : 2 * k * m = 64) :
    (count64 x c).toNat = gstep k m x.toNat := by
  unfold count64
  have hl := gstep_lt k m hpos x.toNat
  rw [hw] at hl
  rw [hm, BitVec.toNat_add, BitVec.toNat_and, BitVec.toNat_and, BitVec.toNat_ushiftRight,
    BitVec.toNat_ofNat, Nat.mod_eq_of_lt hlt, hk]
  exact Nat.mod_eq_of_lt hl

theorem bitCount32_toNat (x : BitVec 32) : (bitCount32 x).toNat = dsum 1 32 x.toNat := by
  unfold bitCount32
  have d1 : (count32 (count32 (count32 (count32 (count32 x 0) 1) 2) 3) 4).toNat =
      dsum 32 1 (count32 (count32 (count32 (count32 (count32 x 0) 1) 2) 3) 4).toNat := by
    have := (count32 (count32 (count32 (count32 (count32 x 0) 1) 2) 3) 4).isLt
    simp only [dsum]
    omega
  rw [d1]
  rw [count32_toNat _ 4 16 1 rfl (by omega) (by decide) (by decide) rfl,
    count32_toNat _ 3 8 2 rfl (by omega) (by decide) (by decide) rfl,
    count32_toNat _ 2 4 4 rfl (by omega) (by decide) (by decide) rfl,
    count32_toNat _ 1 2 8 rfl (by omega) (by decide) (by decide) rfl,
    count32_toNat _ 0 1 16 rfl (by omega) (by decide) (by decide) rfl]
  rw [dsum_gstep 16 1 (by omega), dsum_gstep 8 2 (by omega), dsum_gstep 4 4 (by omega),
    dsum_gstep 2 8 (by omega), dsum_gstep 1 16 (by omega)]

theorem bitCount64_toNat (x : BitVec 64) : (bitCount64 x).toNat = dsum 1 64 x.toNat := by
  unfold bitCount64
  have d1 : (count64 (count64 (count64 (count64 (count64 (count64 x 0) 1) 2) 3) 4) 5).toNat =
      dsum 64 1 (count64 (count64 (count64 (count64 (count64 (count64 x 0) 1) 2) 3) 4) 5).toNat := by
    have := (count64 (count64 (count64 (count64 (count64 (count64 x 0) 1) 2) 3) 4) 5).isLt
    simp only [dsum]
    omega
  rw [d1]
  rw [count64_toNat _ 5 32 1 rfl (by omega) (by decide) (by decide) rfl,
    count64_toNat _ 4 16 2 rfl (by omega) (by decide) (by decide) rfl,
    count64_toNat _ 3 8 4 rfl (by omega) (by decide) (by decide) rfl,
    count64_toNat _ 2 4 8 rfl (by omega) (by decide) (by decide) rfl,
    count64_toNat _ 1 2 16 rfl (by omega) (by decide) (by decide) rfl,
    count64_toNat _ 0 1 32 rfl (by omega) (by decide) (by decide) rfl]
  rw [dsum_gstep 32 1 (by omega), dsum_gstep 16 2 (by omega), dsum_gstep 8 4 (by omega),
    dsum_gstep 4 8 (by omega), dsum_gstep 2 16 (by omega), dsum_gstep 1 32 (by omega)]

theorem byteAt_getLsbD {w : Nat} (x : BitVec w) (s i : Nat) (hi : i < 8) :
    (byteAt x s).toBitVec.getLsbD i = x.getLsbD (s + i) := by
  simp [byteAt, hi]

end Nx

namespace Nx

theorem mask_bit : ∀ j k : Fin 8,
    ((1 <<< UInt8.ofNat j.1 : UInt8)).toBitVec.getLsbD k.1 = decide (j = k) := by
  decide +kernel

theorem and_mask_ne_zero : ∀ (k : Fin 8) (b : Fin 256),
    (UInt8.ofNat b.1 &&& (1 <<< UInt8.ofNat k.1)) ≠ 0 ↔
      (UInt8.ofNat b.1).toBitVec.getLsbD k.1 = true := by
  decide +kernel

theorem and_mask_ne_zero' (k : Nat) (hk : k < 8) (b : Byte) :
    (b &&& (1 <<< UInt8.ofNat k)) ≠ 0 ↔ b.toBitVec.getLsbD k = true := by
  have h := and_mask_ne_zero ⟨k, hk⟩ ⟨b.toNat, b.toNat_lt⟩
  simpa using h

/-- Bit `i` of a byte array. -/
def arrayBit (bits : Bytes) (i : Nat) : Bool :=
  match bits[i / 8]? with
  | some b => b.toBitVec.getLsbD (i % 8)
  | none => false

theorem bitArrayGet_ok (bits : Bytes) (i : Nat) (h : i / 8 < bits.length) :
    ∃ b, bitArrayGet bits i = .ok b ∧ (b ≠ 0 ↔ arrayBit bits i = true) := by
  refine ⟨bits[i / 8] &&& (1 <<< UInt8.ofNat (i % 8)), ?_, ?_⟩
  · simp [bitArrayGet, readAt_ok h]
  · rw [and_mask_ne_zero' _ (Nat.mod_lt _ (by omega))]
    simp [arrayBit, h]

theorem bitArraySet_ok (bits : Bytes) (i : Nat) (v : Bool) (h : i / 8 < bits.length) :
    ∃ bits', bitArraySet bits i v = .ok bits' ∧ bits'.length = bits.length ∧
      ∀ j, j / 8 < bits.length → arrayBit bits' j = setBit (arrayBit bits) i v j := by
  refine ⟨bits.set (i / 8) (if v then bits[i / 8] ||| (1 <<< UInt8.ofNat (i % 8))
      else bits[i / 8] &&& ~~~ (1 <<< UInt8.ofNat (i % 8))), ?_, ?_, ?_⟩
  · simp [bitArraySet, readAt_ok h, writeAt, h]
  · simp
  · intro j hj
    have hi8 : i % 8 < 8 := Nat.mod_lt _ (by omega)
    have hj8 : j % 8 < 8 := Nat.mod_lt _ (by omega)
    have hm := mask_bit ⟨i % 8, hi8⟩ ⟨j % 8, hj8⟩
    simp only [Fin.mk.injEq] at hm
    by_cases hq : i / 8 = j / 8
    · have hji : j = i ↔ i % 8 = j % 8 := by omega
      have e1 : arrayBit bits j = bits[j / 8].toBitVec.getLsbD (j % 8) := by
        simp [arrayBit, hj]
      have e2 : ∀ y, arrayBit (bits.set (i / 8) y) j = y.toBitVec.getLsbD (j % 8) := by
        intro y
        simp [arrayBit, hq, hj]
      have e0 : bits[i / 8] = bits[j / 8] := by simp [hq]
      rw [e2, setBit, e1, e0]
      have hj' : (j = i) = (i % 8 = j % 8) := propext hji
      generalize (1 <<< UInt8.ofNat (i % 8) : UInt8) = m at *
      generalize bits[j / 8] = b at *
      simp only [hj']
      cases v
      · simp only [Bool.false_eq_true, if_false, UInt8.toBitVec_and, UInt8.toBitVec_not,
          BitVec.getLsbD_and, BitVec.getLsbD_not, hm, hj8]
        by_cases hc : i % 8 = j % 8 <;> simp [hc]
      · simp only [if_true, UInt8.toBitVec_or, BitVec.getLsbD_or, hm]
        by_cases hc : i % 8 = j % 8 <;> simp [hc]
    · have : ¬ j = i := by rintro rfl; exact hq rfl
      simp [setBit, this, arrayBit, hq]

end Nx
