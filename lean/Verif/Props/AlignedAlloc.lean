import Verif.Model.AlignedAlloc
import Verif.Props.Filter

/-! # C154: aligned memory for filters -/

namespace Nx

/-- The smallest multiple of `a` that is not less than `m`. -/
structure LeastMultiple (a m k : Nat) : Prop where
  dvd : a ∣ k
  ge : m ≤ k
  least : ∀ j, a ∣ j → m ≤ j → k ≤ j

/-- `aligned_alloc` gives as many bytes as it is asked for, or none. -/
def Honest (aalloc : AlignedMalloc) : Prop := ∀ a sz b, aalloc a sz = some b → b.length = sz

theorem alignedSize_least {a l : Nat} (ha : 0 < a) (ha2 : a ≤ 4294967296) (hl : l ≤ 4294967296) :
    LeastMultiple a (4 * l) (alignedSize a l) := by
  have e : mulSize l 4 = 4 * l := by
    unfold mulSize
    rw [Nat.mod_eq_of_lt (by omega), Nat.mul_comm]
  unfold alignedSize
  simp only [e]
  have hdm := Nat.div_add_mod (4 * l) a
  have hlt := Nat.mod_lt (4 * l) ha
  by_cases h : 4 * l % a = 0
  · rw [if_neg (by simp [h])]
    exact ⟨Nat.dvd_of_mod_eq_zero h, Nat.le_refl _, fun j _ hj => hj⟩
  · rw [if_pos h]
    have hq : 4 * l / a ≤ 4 * l := Nat.div_le_self _ _
    have e1 : (4 * l / a + 1) % 2 ^ 64 = 4 * l / a + 1 := Nat.mod_eq_of_lt (by omega)
    have e3 : (4 * l / a + 1) * a = a * (4 * l / a) + a := by rw [Nat.add_mul, Nat.one_mul, Nat.mul_comm]
    have e2 : mulSize ((4 * l / a + 1) % 2 ^ 64) a = (4 * l / a + 1) * a := by
      unfold mulSize
      rw [e1]
      apply Nat.mod_eq_of_lt
      rw [e3]
      omega
    rw [e2]
    refine ⟨Nat.dvd_mul_left _ _, ?_, ?_⟩
    · rw [e3]
      omega
    · rintro j ⟨q, rfl⟩ hj
      rw [Nat.mul_comm]
      apply Nat.mul_le_mul_left
      by_cases hc : 4 * l / a + 1 ≤ q
      · exact hc
      · have h1 : a * q ≤ a * (4 * l / a) := Nat.mul_le_mul_left _ (by omega)
        omega

/-- C154. For at least zero samples and borders whose number fits an `int` the assertion holds, and `aligned_alloc` is asked for the
least number of bytes that is a multiple of the alignment and enough; only a lack of memory stops the program. -/
theorem c154_buffer (aalloc : AlignedMalloc) (hA : Honest aalloc) {a : Nat} (ha : 0 < a) (ha2 : a ≤ 4294967296) {n nb : Int}
    (hn : 0 ≤ n) (hnb : 0 ≤ nb) (hi : n + 2 * nb ≤ 2147483647) :
    ∃ sz, LeastMultiple a (4 * (n + 2 * nb).toNat) sz ∧
      (aalloc a sz = none → filterBufferAlloc aalloc a n nb = .fatal) ∧
      ∀ b, aalloc a sz = some b → filterBufferAlloc aalloc a n nb = .ok b ∧ b.length = sz := by
  have et : toSize (n + 2 * nb) = (n + 2 * nb).toNat := by
    unfold toSize
    rw [Int.emod_eq_of_lt (by omega) (by omega)]
  have hL := alignedSize_least (a := a) (l := (n + 2 * nb).toNat) ha ha2 (by omega)
  have hz : alignedSize a (n + 2 * nb).toNat % a = 0 := Nat.mod_eq_zero_of_dvd hL.dvd
  refine ⟨_, hL, ?_, ?_⟩
  · intro h
    unfold filterBufferAlloc nxXalignedAlloc
    rw [if_pos (by unfold InI32; omega), if_neg (by omega), if_neg (by omega), et, if_pos hz, h]
  · intro b h
    refine ⟨?_, hA _ _ _ h⟩
    unfold filterBufferAlloc nxXalignedAlloc
    rw [if_pos (by unfold InI32; omega), if_neg (by omega), if_neg (by omega), et, if_pos hz, h]

/-- C154. The buffer for images is large enough for both passes of `nx_image_smooth`. -/
theorem c154_image (aalloc : AlignedMalloc) (hA : Honest aalloc) {a : Nat} (ha : 0 < a) (ha2 : a ≤ 4294967296) {w h tx ty : Int}
    (hw : 0 ≤ w) (hh : 0 ≤ h) (htx : 0 ≤ tx) (hty : 0 ≤ ty) (hi : max w h + max (kernelSize tx) (kernelSize ty) ≤ 2147483647)
    {b : List Byte} {nkx nky : Int} (he : imageFilterBufferAlloc aalloc a w h tx ty = .ok (b, nkx, nky)) :
    nkx = kernelSize tx ∧ nky = kernelSize ty ∧ 4 * (w + 2 * (nkx / 2)) ≤ b.length ∧ 4 * (h + 2 * (nky / 2)) ≤ b.length ∧
      a ∣ b.length := by
  obtain ⟨x1, x2, _, _⟩ := c54_kernel_size tx htx
  obtain ⟨y1, y2, _, _⟩ := c54_kernel_size ty hty
  unfold imageFilterBufferAlloc at he
  simp only [Int.tdiv_eq_ediv_of_nonneg (show 0 ≤ max (kernelSize tx) (kernelSize ty) by omega)] at he
  obtain ⟨b', e1, e2⟩ := Res.bind_eq_ok.mp he
  obtain ⟨rfl, rfl, rfl⟩ : b' = b ∧ kernelSize tx = nkx ∧ kernelSize ty = nky := by
    simp only [Res.pure_eq, Res.ok.injEq, Prod.mk.injEq] at e2
    exact e2
  obtain ⟨sz, hL, hN, hS⟩ := c154_buffer aalloc hA ha ha2 (n := max w h) (nb := max (kernelSize tx) (kernelSize ty) / 2)
    (by omega) (by omega) (by omega)
  cases hs : aalloc a sz with
  | none =>
    rw [hN hs] at e1
    cases e1
  | some b2 =>
    obtain ⟨f1, f2⟩ := hS b2 hs
    rw [f1] at e1
    cases e1
    have := hL.ge
    refine ⟨rfl, rfl, ?_, ?_, by rw [f2]; exact hL.dvd⟩ <;> omega

/-- C154 fails: for a negative number of elements, down to a quarter of the alignment, `aligned_alloc` is asked for no bytes at all;
what it gives is returned. -/
theorem c154_negative_false (aalloc : AlignedMalloc) {b : List Byte} (h : aalloc 16 0 = some b) (k : Nat) (hk : 1 ≤ k ∧ k ≤ 3) :
    filterBufferAlloc aalloc 16 (-(k : Int)) 0 = .ok b := by
  obtain ⟨h1, h2⟩ := hk
  have : k = 1 ∨ k = 2 ∨ k = 3 := by omega
  have e : alignedSize 16 (toSize (-(k : Int) + 2 * 0)) = 0 := by
    rcases this with rfl | rfl | rfl <;> decide +kernel
  unfold filterBufferAlloc nxXalignedAlloc
  rw [if_pos (by unfold InI32; omega), if_neg (by omega), if_neg (by omega), e, if_pos (by omega), h]

/-- C154 fails: an alignment of zero is undefined, for all sizes. -/
theorem c154_zero_false (aalloc : AlignedMalloc) (sz : Nat) :
    nxAlignedAlloc aalloc 0 sz = .ub ∧ nxXalignedAlloc aalloc 0 sz = .ub := ⟨rfl, rfl⟩

/-- C154. Otherwise the two functions stop the program exactly for sizes that are not multiples, and the second one if there is no
memory. -/
theorem c154_alloc (aalloc : AlignedMalloc) {a : Nat} (ha : 0 < a) (sz : Nat) :
    (nxAlignedAlloc aalloc a sz = .fatal ↔ ¬ a ∣ sz) ∧ (a ∣ sz → nxAlignedAlloc aalloc a sz = .ok (aalloc a sz)) ∧
      (nxXalignedAlloc aalloc a sz = .fatal ↔ ¬ a ∣ sz ∨ aalloc a sz = none) ∧
      ∀ b, nxXalignedAlloc aalloc a sz = .ok b → aalloc a sz = some b ∧ a ∣ sz := by
  unfold nxAlignedAlloc nxXalignedAlloc
  have h0 : a ≠ 0 := by omega
  simp only [if_neg h0, Nat.dvd_iff_mod_eq_zero]
  by_cases h : sz % a = 0
  · simp only [if_pos h]
    cases hs : aalloc a sz <;> simp [h]
  · simp only [if_neg h]
    simp [h]

/-! ## Examples -/

example : alignedSize 16 (toSize (5 + 2 * 3)) = 48 ∧ alignedSize 16 (toSize (4 + 2 * 2)) = 32 := by decide +kernel

example : filterBufferAlloc (fun _ sz => some (List.replicate sz 0)) 16 2 1 = .ok (List.replicate 16 0) := by decide +kernel

example : imageFilterBufferAlloc (fun _ sz => some (List.replicate sz 0)) 16 3 2 4 2 = .ok (List.replicate 32 0, 5, 3) := by
  decide +kernel

example : Honest (fun _ sz => some (List.replicate sz 0)) := by
  intro a sz b h
  cases h
  exact List.length_replicate

end Nx
