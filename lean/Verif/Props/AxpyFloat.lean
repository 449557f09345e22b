import Verif.Model.AxpyFloat
import Verif.Props.NormFloat
import Verif.Props.BriefPyr

/-!
# C157: brightness and contrast of images of bytes in `float` arithmetic
-/

namespace Nx

variable {img : GImage Byte} {nc w h : Nat} {f : Nat → Nat → Byte}

/-- Truncated and limited to the values of a byte. -/
def byteOf (q : Rat) : Int := max 0 (min 255 (ratTrunc q))

theorem axpyByteFl_val {a y : Rat} {v : Byte} (hr : InI32 (ratTrunc (f32 (f32 (a * v.toNat) + y)))) :
    ∃ b, axpyByteFl a y v = .ok b ∧ (b.toNat : Int) = byteOf (f32 (f32 (a * v.toNat) + y)) := by
  unfold axpyByteFl byteOf
  generalize ratTrunc (f32 (f32 (a * v.toNat) + y)) = p at hr
  refine ⟨_, if_pos hr, ?_⟩
  rw [UInt8.toNat_ofNat']
  by_cases h0 : p < 0
  · rw [if_pos h0]
    simp
    omega
  · rw [if_neg h0]
    by_cases h1 : p > 255
    · rw [if_pos h1]
      simp
      omega
    · rw [if_neg h1]
      omega

/-- C157. Every sample of every channel is computed on its own, as long as the numbers are in the range of `int`. -/
theorem c157_axpy_uc (a b : Rat) (hw : (img.flat nc).Wf) (hs : (img.flat nc).Shows w h f)
    (hr : ∀ x y, x < w → y < h → InI32 (ratTrunc (f32 (f32 (a * (f x y).toNat) + b)))) :
    ∃ d g, axpyUcFl nc a b img = .ok d ∧ (d.flat nc).Wf ∧ (d.flat nc).Shows w h g ∧
      ∀ x y, x < w → y < h → ((g x y).toNat : Int) = byteOf (f32 (f32 (a * (f x y).toNat) + b)) := by
  obtain ⟨φ, hφ⟩ : ∃ φ : Byte → Byte, ∀ v, InI32 (ratTrunc (f32 (f32 (a * v.toNat) + b))) →
      axpyByteFl a b v = .ok (φ v) ∧ ((φ v).toNat : Int) = byteOf (f32 (f32 (a * v.toNat) + b)) := by
    have : ∀ v : Byte, ∃ c : Byte, InI32 (ratTrunc (f32 (f32 (a * v.toNat) + b))) →
        axpyByteFl a b v = .ok c ∧ (c.toNat : Int) = byteOf (f32 (f32 (a * v.toNat) + b)) := by
      intro v
      by_cases hv : InI32 (ratTrunc (f32 (f32 (a * v.toNat) + b)))
      · obtain ⟨c, hc⟩ := axpyByteFl_val hv
        exact ⟨c, fun _ => hc⟩
      · exact ⟨0, fun h => absurd h hv⟩
    exact ⟨fun v => Classical.choose (this v), fun v => Classical.choose_spec (this v)⟩
  obtain ⟨d', e, hP⟩ := sampleLoop_write (φ := φ)
    (body := fun i d => do
      let v ← readAt d i
      let b ← axpyByteFl a b v
      writeAt d i b) hw hs (by
      intro i d v x y hx hy _ hv hvf
      rw [readAt_some hv]
      simp only [Res.ok_bind]
      subst hvf
      rw [(hφ _ (hr x y hx hy)).1]
      rfl)
  refine ⟨{ img with data := d' }, _, ?_, ⟨hw.stride_ge, ?_⟩, ⟨hs.width_eq, hs.height_eq, hP.at'⟩, ?_⟩
  · unfold axpyUcFl
    rw [e]
    rfl
  · have e2 : img.height = h := hs.height_eq
    show d'.length = img.stride * img.height
    rw [hP.len, e2]
  · intro x y hx hy
    exact (hφ _ (hr x y hx hy)).2

theorem trunc_step (q : Rat) : ratTrunc (q + 1) ≤ ratTrunc q + 1 := by
  have e : ∀ q : Rat, q.floor = ⌊q⌋ := fun _ => rfl
  unfold ratTrunc
  simp only [e]
  split
  · rename_i h1
    rw [if_pos (by linarith)]
    have : -(q + 1) = -q - 1 := by ring
    rw [this, Int.floor_sub_one]
    omega
  · rw [Int.floor_add_one]
    split
    · have h1 := Int.floor_le q
      have h2 := Int.floor_le (-q)
      have : ((⌊q⌋ + ⌊-q⌋ : Int) : Rat) ≤ 0 := by push_cast; linarith
      have : ⌊q⌋ + ⌊-q⌋ ≤ 0 := by exact_mod_cast this
      omega
    · omega

theorem byteOf_mono {p q : Rat} (h : p ≤ q) : byteOf p ≤ byteOf q := by
  have := ratTrunc_mono h
  unfold byteOf
  omega

theorem byteOf_near {p q : Rat} (h : |p - q| ≤ 1) : |byteOf p - byteOf q| ≤ 1 := by
  rw [abs_le] at h
  have a := ratTrunc_mono (show p ≤ q + 1 by linarith)
  have b := ratTrunc_mono (show q ≤ p + 1 by linarith)
  have c := trunc_step p
  have d := trunc_step q
  unfold byteOf
  rw [abs_le]
  omega

/-- C157. The order of the samples is kept for positive factors and reversed for negative ones. -/
theorem c157_order (a b : Rat) (u v : Byte) (h : u.toNat ≤ v.toNat) :
    (0 ≤ a → byteOf (f32 (f32 (a * u.toNat) + b)) ≤ byteOf (f32 (f32 (a * v.toNat) + b))) ∧
      (a ≤ 0 → byteOf (f32 (f32 (a * v.toNat) + b)) ≤ byteOf (f32 (f32 (a * u.toNat) + b))) := by
  have h' : (u.toNat : Rat) ≤ v.toNat := by exact_mod_cast h
  constructor
  · intro ha
    exact byteOf_mono (f32_mono (add_le_add_left (f32_mono (mul_le_mul_of_nonneg_left h' ha)) _))
  · intro ha
    exact byteOf_mono (f32_mono (add_le_add_left (f32_mono (mul_le_mul_of_nonpos_left h' ha)) _))

theorem axpy_near {a b : Rat} (ha : |a| ≤ 8192) (hb : |b| ≤ 2097152) (v : Byte) :
    |f32 (f32 (a * v.toNat) + b) - (a * v.toNat + b)| ≤ 1 / 2 := by
  have hv : (v.toNat : Rat) ≤ 255 := by
    have := v.toNat_lt
    exact_mod_cast (by omega : v.toNat ≤ 255)
  have hv0 : (0 : Rat) ≤ v.toNat := by positivity
  have hp : |a * v.toNat| ≤ 2088960 := by
    rw [abs_mul, abs_of_nonneg hv0]
    have := mul_le_mul ha hv hv0 (by norm_num)
    linarith
  have c1 := f32_near (a * v.toNat)
  have b1 : |f32 (a * v.toNat) + b - (a * v.toNat + b)| ≤ 2088960 / 16777216 + 1 / 281474976710656 := by
    have e : f32 (a * v.toNat) + b - (a * v.toNat + b) = f32 (a * v.toNat) - a * v.toNat := by ring
    rw [e]
    linarith
  have c2 := f32_shift b1 (B := 2088960 + 2097152) (le_trans (abs_add_le _ _) (add_le_add hp hb))
  norm_num at c2 ⊢
  linarith

/-- C157. For factors up to 8192 and offsets up to 2^21 nothing is undefined, and the result differs from the one of exact arithmetic by
at most one. -/
theorem c157_near {a b : Rat} (ha : |a| ≤ 8192) (hb : |b| ≤ 2097152) (v : Byte) :
    InI32 (ratTrunc (f32 (f32 (a * v.toNat) + b))) ∧ |byteOf (f32 (f32 (a * v.toNat) + b)) - byteOf (a * v.toNat + b)| ≤ 1 := by
  have hn := axpy_near ha hb v
  refine ⟨?_, byteOf_near (by linarith)⟩
  have hv : (v.toNat : Rat) ≤ 255 := by
    have := v.toNat_lt
    exact_mod_cast (by omega : v.toNat ≤ 255)
  have hv0 : (0 : Rat) ≤ v.toNat := by positivity
  have hp : |a * v.toNat| ≤ 2088960 := by
    rw [abs_mul, abs_of_nonneg hv0]
    have := mul_le_mul ha hv hv0 (by norm_num)
    linarith
  rw [abs_le] at hn hp hb
  have l1 := ratTrunc_mono (show ((-4194304 : Int) : Rat) ≤ f32 (f32 (a * v.toNat) + b) by push_cast; linarith)
  have l2 := ratTrunc_mono (show f32 (f32 (a * v.toNat) + b) ≤ ((4194304 : Int) : Rat) by push_cast; linarith)
  rw [ratTrunc_int] at l1 l2
  unfold InI32
  omega

/-- C157. For integers the result is exact: inversion, shifts and multiples. -/
theorem c157_integers {a b : Int} (ha : |a| ≤ 8192) (hb : |b| ≤ 2097152) (v : Byte) :
    byteOf (f32 (f32 ((a : Rat) * v.toNat) + (b : Rat))) = max 0 (min 255 (a * (v.toNat : Int) + b)) := by
  have hv : v.toNat < 256 := v.toNat_lt
  have hp : |a * (v.toNat : Int)| ≤ 2088960 := by
    rw [abs_mul, abs_of_nonneg (by omega : (0 : Int) ≤ (v.toNat : Int))]
    have := mul_le_mul ha (by omega : (v.toNat : Int) ≤ 255) (by omega) (by norm_num)
    omega
  have e1 := f32_int (n := a * (v.toNat : Int)) (by omega)
  have e2 := f32_int (n := a * (v.toNat : Int) + b) (by
    have := abs_add_le (a * (v.toNat : Int)) b
    omega)
  push_cast at e1 e2
  rw [e1, e2]
  unfold byteOf
  have e3 := ratTrunc_int (a * (v.toNat : Int) + b)
  push_cast at e3
  rw [e3]

/-- C157 fails: the factor is the `float` nearest to 0.7, below it; ten times the factor is truncated to 7, not to 6. -/
theorem c157_exact_false : axpyUcFl 1 (11744051 / 16777216) 0 ⟨1, 1, 1, [10]⟩ = .ok ⟨1, 1, 1, [7]⟩ ∧
    axpyUc 1 (11744051 / 16777216) 0 ⟨1, 1, 1, [10]⟩ = .ok ⟨1, 1, 1, [6]⟩ := by decide +kernel

/-- C157 fails: numbers outside of `int` are undefined and not limited. -/
theorem c157_range_false : axpyUcFl 1 16777216 0 ⟨1, 1, 1, [200]⟩ = .ub := by decide +kernel

/-! ## Examples -/

example : axpyUcFl 1 (-1) 255 ⟨3, 1, 3, [0, 100, 255]⟩ = .ok ⟨3, 1, 3, [255, 155, 0]⟩ := by decide +kernel

example : axpyUcFl 2 (3 / 2) (-20) ⟨2, 1, 4, [0, 100, 255, 20]⟩ = .ok ⟨2, 1, 4, [0, 130, 255, 10]⟩ := by decide +kernel

end Nx
