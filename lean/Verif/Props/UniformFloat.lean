import Verif.Model.UniformFloat
import Verif.Props.MeanFloat
import Verif.Props.ScaleFloat

/-! # C150: uniform samples in floating point -/

namespace Nx

/-! ## Lemmas -/

theorem f64_nat {n : Nat} (h : n ≤ 9007199254740992) : f64 n = n := by
  have := f64_int (n := (n : Int)) (by rw [abs_of_nonneg (by omega)]; omega)
  exact_mod_cast this

/-- A sample before it is rounded to `float`. -/
theorem sampleSF_eq (v : BitVec 32) : sampleSF v = f32 (v.toNat / 4294967296) := by
  have hv := v.isLt
  have e1 : f64 (1 / 4294967296) = 1 / 4294967296 := f64_exact ⟨1, -32, by norm_num, by norm_num, by norm_num⟩
  have e2 : f64 ((v.toNat : Rat) * (1 / 4294967296)) = v.toNat * (1 / 4294967296) :=
    f64_exact ⟨v.toNat, -32, by rw [abs_of_nonneg (by omega)]; norm_num; omega, by norm_num, by norm_num⟩
  unfold sampleSF
  rw [f64_nat (by omega), e1, e2, mul_one_div]

/-- The sample of a greater number is not less. -/
theorem sampleSF_mono {a : Nat} {v : BitVec 32} (h : a ≤ v.toNat) : f32 ((a : Rat) / 4294967296) ≤ sampleSF v := by
  rw [sampleSF_eq]
  have : (a : Rat) ≤ v.toNat := by exact_mod_cast h
  exact f32_mono (by linarith)

theorem sampleSF_mono' {a : Nat} {v : BitVec 32} (h : v.toNat ≤ a) : sampleSF v ≤ f32 ((a : Rat) / 4294967296) := by
  rw [sampleSF_eq]
  have : (v.toNat : Rat) ≤ a := by exact_mod_cast h
  exact f32_mono (by linarith)

theorem mix64_toNat (x y : BitVec 32) : (mix64 x y).toNat = y.toNat * 4294967296 + x.toNat := by
  have hx := x.isLt
  have hy := y.isLt
  unfold mix64
  rw [BitVec.toNat_or, BitVec.toNat_shiftLeft, BitVec.toNat_setWidth, BitVec.toNat_setWidth, Nat.mod_eq_of_lt (by omega),
    Nat.mod_eq_of_lt (a := y.toNat) (by omega), Nat.or_comm]
  have h1 : y.toNat <<< 32 = y.toNat * 4294967296 := by rw [Nat.shiftLeft_eq]
  rw [Nat.mod_eq_of_lt (by rw [h1]; omega), ← Nat.shiftLeft_add_eq_or_of_lt (by omega), h1]

/-- The sample of two numbers. -/
theorem sampleDF_eq (x y : BitVec 32) : sampleDF x y = ((y.toNat * 4294967296 + x.toNat) / 2048 : Nat) / 9007199254740992 := by
  have hx := x.isLt
  have hy := y.isLt
  have e1 : f64 (1 / 9007199254740992) = 1 / 9007199254740992 := f64_exact ⟨1, -53, by norm_num, by norm_num, by norm_num⟩
  unfold sampleDF
  have e0 : (mix64 x y >>> 11).toNat = (y.toNat * 4294967296 + x.toNat) / 2048 := by
    rw [BitVec.toNat_ushiftRight, mix64_toNat, Nat.shiftRight_eq_div_pow]
  rw [e0]
  have hk : (y.toNat * 4294967296 + x.toNat) / 2048 < 9007199254740992 := by omega
  generalize (y.toNat * 4294967296 + x.toNat) / 2048 = k at *
  have e2 : f64 ((k : Rat) * (1 / 9007199254740992)) = k * (1 / 9007199254740992) :=
    f64_exact ⟨k, -53, by rw [abs_of_nonneg (by omega)]; norm_num; omega, by norm_num, by norm_num⟩
  rw [f64_nat (by omega), e1, e2, mul_one_div]

/-! ## C150 -/

/-- C150, `double`: the samples are the multiples of 2^-53 from 0 to below 1, and each is given by 2048 of the 2^64 pairs of numbers. -/
theorem c150_double : (∀ x y, ∃ k < 9007199254740992, sampleDF x y = (k : Nat) / 9007199254740992) ∧
    ∀ k < 9007199254740992, ∃ f : Fin 2048 → BitVec 32 × BitVec 32, (∀ i j, f i = f j → i = j) ∧
      ∀ p, sampleDF p.1 p.2 = (k : Nat) / 9007199254740992 ↔ ∃ i, f i = p := by
  constructor
  · intro x y
    have hx := x.isLt
    have hy := y.isLt
    exact ⟨_, by omega, sampleDF_eq x y⟩
  · intro k hk
    refine ⟨fun i => (BitVec.ofNat 32 ((2048 * k + i) % 4294967296), BitVec.ofNat 32 ((2048 * k + i) / 4294967296)), ?_, ?_⟩
    · intro i j h
      have hi := i.isLt
      have hj := j.isLt
      have h1 := congrArg (fun p => p.1.toNat) h
      have h2 := congrArg (fun p => p.2.toNat) h
      simp only [BitVec.toNat_ofNat] at h1 h2
      exact Fin.ext (by omega)
    · intro p
      rw [sampleDF_eq]
      have hx := p.1.isLt
      have hy := p.2.isLt
      constructor
      · intro h
        have h1 : (((p.2.toNat * 4294967296 + p.1.toNat) / 2048 : Nat) : Rat) = k := by linarith
        have h2 : (p.2.toNat * 4294967296 + p.1.toNat) / 2048 = k := by exact_mod_cast h1
        refine ⟨⟨p.2.toNat * 4294967296 + p.1.toNat - 2048 * k, by omega⟩, ?_⟩
        refine Prod.ext (BitVec.eq_of_toNat_eq ?_) (BitVec.eq_of_toNat_eq ?_) <;> simp only [BitVec.toNat_ofNat] <;> omega
      · rintro ⟨i, rfl⟩
        have hi := i.isLt
        simp only [BitVec.toNat_ofNat]
        have : ((2048 * k + i.val) / 4294967296 % 2 ^ 32 * 4294967296 + (2048 * k + i.val) % 4294967296 % 2 ^ 32) / 2048 = k := by omega
        rw [this]

/-- C150, `float`: the samples are from 0 to 1 and close to the exact quotients. -/
theorem c150_float (v : BitVec 32) : 0 ≤ sampleSF v ∧ sampleSF v ≤ 1 ∧ |sampleSF v - v.toNat / 4294967296| ≤ 1 / 33554432 := by
  have hv := v.isLt
  have h0 : (0 : Rat) ≤ v.toNat / 4294967296 := by positivity
  have h1 : (v.toNat : Rat) / 4294967296 < 1 := by
    rw [div_lt_one (by norm_num)]
    exact_mod_cast hv
  have e1 : f32 1 = 1 := by have := f32_nat (n := 1) (by norm_num); exact_mod_cast this
  rw [sampleSF_eq]
  refine ⟨f32_nonneg h0, ?_, ?_⟩
  · have := f32_mono h1.le
    rwa [e1] at this
  · have := f32_err (q := (v.toNat : Rat) / 4294967296) (k := 0) (by norm_num) (by rw [abs_of_nonneg h0, zpow_zero]; exact h1)
    norm_num at this ⊢
    exact this

/-- C150 fails for `float`: 128 of the 2^32 numbers give 1. -/
theorem c150_float_false (v : BitVec 32) : sampleSF v = 1 ↔ 4294967168 ≤ v.toNat := by
  constructor
  · intro h
    by_contra hc
    have h1 := sampleSF_mono' (v := v) (a := 4294967167) (by omega)
    rw [h] at h1
    have h2 : ¬ (1 ≤ f32 (((4294967167 : Nat) : Rat) / 4294967296)) := by decide +kernel
    exact h2 h1
  · intro h
    have h1 := sampleSF_mono h
    have h2 : f32 (((4294967168 : Nat) : Rat) / 4294967296) = 1 := by decide +kernel
    rw [h2] at h1
    exact le_antisymm (c150_float v).2.1 h1

theorem noise_mono {a : Nat} {v : BitVec 32} (h : a ≤ v.toNat) : f32 (255 * f32 ((a : Rat) / 4294967296)) ≤ f32 (255 * sampleSF v) :=
  f32_mono (by linarith [sampleSF_mono h])

theorem noise_mono' {a : Nat} {v : BitVec 32} (h : v.toNat ≤ a) : f32 (255 * sampleSF v) ≤ f32 (255 * f32 ((a : Rat) / 4294967296)) :=
  f32_mono (by linarith [sampleSF_mono' h])

/-- C150: a noise pixel is always defined, and 255 times the quotient rounded down, up to 2^-15. -/
theorem c150_noise (v : BitVec 32) : ∃ b, noiseByte v = .ok b ∧ (b.toNat : Rat) ≤ 255 * (v.toNat / 4294967296) + 1 / 32768 ∧
    (255 * (v.toNat / 4294967296) - 1 / 32768 : Rat) < b.toNat + 1 ∧
    (b.toNat : Rat) ≤ f32 (255 * sampleSF v) ∧ f32 (255 * sampleSF v) < b.toNat + 1 := by
  obtain ⟨s0, s1, s2⟩ := c150_float v
  have s2 := abs_le.mp s2
  have n0 : 0 ≤ f32 (255 * sampleSF v) := f32_nonneg (by linarith)
  have n1 : f32 (255 * sampleSF v) ≤ 255 := by
    have := f32_mono (show 255 * sampleSF v ≤ ((255 : Nat) : Rat) by push_cast; linarith)
    rw [f32_nat (by norm_num)] at this
    exact_mod_cast this
  have er := abs_le.mp (f32_err_512 (q := 255 * sampleSF v) (by linarith) (by linarith))
  have f0 : 0 ≤ ⌊f32 (255 * sampleSF v)⌋ := Int.floor_nonneg.mpr n0
  have f1 : ⌊f32 (255 * sampleSF v)⌋ ≤ 255 := by
    have := Int.floor_le_floor (show f32 (255 * sampleSF v) ≤ ((255 : Int) : Rat) by push_cast; exact n1)
    rwa [Int.floor_intCast] at this
  have g0 := Int.floor_le (f32 (255 * sampleSF v))
  have g1 := Int.lt_floor_add_one (f32 (255 * sampleSF v))
  refine ⟨UInt8.ofNat ⌊f32 (255 * sampleSF v)⌋.toNat, ?_, ?_⟩
  · unfold noiseByte
    simp only
    rw [ratTrunc_nonneg n0, if_pos ⟨f0, f1⟩]
  · have e : (((UInt8.ofNat ⌊f32 (255 * sampleSF v)⌋.toNat).toNat : Nat) : Rat) = (⌊f32 (255 * sampleSF v)⌋ : Rat) := by
      rw [UInt8.toNat_ofNat', ← Int.cast_natCast]
      congr 1
      omega
    rw [e]
    exact ⟨by linarith [er.2, s2.2], by linarith [er.1, s2.1], g0, g1⟩

/-- C150 fails for noise: 16843007 of the 2^32 numbers give the gray value 254, but only 128 give 255. -/
theorem c150_noise_false (v : BitVec 32) : (noiseByte v = .ok 254 ↔ 4278124161 ≤ v.toNat ∧ v.toNat < 4294967168) ∧
    (noiseByte v = .ok 255 ↔ 4294967168 ≤ v.toNat) := by
  obtain ⟨b, eb, -, -, h1, h2⟩ := c150_noise v
  have inj : ∀ c : Byte, noiseByte v = .ok c ↔ b = c := fun c => by
    rw [eb]
    exact ⟨fun h => Res.ok.inj h, fun h => by rw [h]⟩
  have t1 : (254 : Rat) ≤ f32 (255 * f32 (((4278124161 : Nat) : Rat) / 4294967296)) := by decide +kernel
  have t2 : f32 (255 * f32 (((4278124160 : Nat) : Rat) / 4294967296)) < (254 : Rat) := by decide +kernel
  have t3 : (255 : Rat) ≤ f32 (255 * f32 (((4294967168 : Nat) : Rat) / 4294967296)) := by decide +kernel
  have t4 : f32 (255 * f32 (((4294967167 : Nat) : Rat) / 4294967296)) < (255 : Rat) := by decide +kernel
  have ge : ∀ n a : Nat, (n : Rat) ≤ f32 (255 * f32 ((a : Rat) / 4294967296)) → a ≤ v.toNat → n ≤ b.toNat := by
    intro n a ha hv
    have h3 := noise_mono hv
    have : (n : Rat) < b.toNat + 1 := by linarith
    have : n < b.toNat + 1 := by exact_mod_cast this
    omega
  have lt : ∀ n a : Nat, f32 (255 * f32 ((a : Rat) / 4294967296)) < (n : Rat) → v.toNat ≤ a → b.toNat < n := by
    intro n a ha hv
    have h3 := noise_mono' hv
    have : (b.toNat : Rat) < n := by linarith
    exact_mod_cast this
  have hb : b.toNat < 256 := b.toNat_lt
  have i1 := ge 254 4278124161 (by exact_mod_cast t1)
  have i2 := lt 254 4278124160 (by exact_mod_cast t2)
  have i3 := ge 255 4294967168 (by exact_mod_cast t3)
  have i4 := lt 255 4294967167 (by exact_mod_cast t4)
  rw [inj, inj, ← UInt8.toNat_inj, ← UInt8.toNat_inj]
  have e1 : (254 : Byte).toNat = 254 := rfl
  have e2 : (255 : Byte).toNat = 255 := rfl
  rw [e1, e2]
  constructor
  · constructor
    · intro h
      constructor
      · by_contra hc
        have := i2 (by omega)
        omega
      · by_contra hc
        have := i3 (by omega)
        omega
    · intro h
      have a := i1 h.1
      have c := i4 (by omega)
      omega
  · constructor
    · intro h
      by_contra hc
      have := i4 (by omega)
      omega
    · intro h
      have := i3 h
      omega

example : sampleSF 0xffffff80#32 = 1 ∧ noiseByte 0xffffff80#32 = .ok 255 ∧ noiseByte 0xffffff7f#32 = .ok 254 :=
  ⟨(c150_float_false _).mpr (by decide), (c150_noise_false _).2.mpr (by decide), (c150_noise_false _).1.mpr (by decide)⟩

example : sampleDF 0xffffffff#32 0xffffffff#32 = 9007199254740991 / 9007199254740992 ∧ sampleDF 0#32 0x80000000#32 = 1 / 2 := by
  decide +kernel

end Nx
