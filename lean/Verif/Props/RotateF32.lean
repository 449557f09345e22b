import Verif.Model.RotateF32
import Verif.Props.RotateFloat

/-!
# C160: rotation of `float` images by 45 degrees in `float` arithmetic
-/

namespace Nx

theorem f32_grow {q B : Rat} (h : |q| ≤ B) : |f32 q| ≤ B + B / 16777216 + 1 / 281474976710656 := by
  have a := f32_near q
  have b := abs_add_le (f32 q - q) q
  rw [sub_add_cancel] at b
  linarith

theorem bilinearFl_bound {u v a b c d M : Rat} (hu : |u| ≤ 1) (hv : |v| ≤ 1) (ha : |a| ≤ M) (hb : |b| ≤ M) (hc : |c| ≤ M)
    (hd : |d| ≤ M) : |bilinearFl u v a b c d| ≤ 901 / 100 * M + 1 / 1000000 := by
  have m0 : 0 ≤ M := (abs_nonneg _).trans ha
  have comp : ∀ t : Rat, |t| ≤ 1 → |f32 (1 - t)| ≤ 2 + 1 / 1000000 := by
    intro t ht
    have := abs_le.mp ht
    have e := f32_grow (q := 1 - t) (B := 2) (by rw [abs_le]; constructor <;> linarith [this.1, this.2])
    linarith
  have prod : ∀ {p q P Q : Rat}, |p| ≤ P → |q| ≤ Q → |f32 (p * q)| ≤ P * Q + P * Q / 16777216 + 1 / 281474976710656 := by
    intro p q P Q hp hq
    refine f32_grow ?_
    rw [abs_mul]
    exact mul_le_mul hp hq (abs_nonneg _) ((abs_nonneg _).trans hp)
  have sum : ∀ {p q P Q : Rat}, |p| ≤ P → |q| ≤ Q → |f32 (p + q)| ≤ P + Q + (P + Q) / 16777216 + 1 / 281474976710656 := by
    intro p q P Q hp hq
    exact f32_grow ((abs_add_le p q).trans (add_le_add hp hq))
  have row : ∀ {t r p q P : Rat}, |t| ≤ 1 → |r| ≤ 2 + 1 / 1000000 → |p| ≤ P → |q| ≤ P →
      |f32 (f32 (r * p) + f32 (t * q))| ≤ 3001 / 1000 * P + 1 / 10000000000 := by
    intro t r p q P ht hr hp hq
    have P0 : 0 ≤ P := (abs_nonneg _).trans hp
    have := sum (prod hr hp) (prod ht hq)
    linarith
  have r1 := row hu (comp u hu) ha hb
  have r2 := row hu (comp u hu) hc hd
  have r3 := row hv (comp v hv) r1 r2
  unfold bilinearFl
  refine r3.trans ?_
  linarith

theorem trunc_abs (q : Rat) : |(ratTrunc q : Rat)| ≤ |q| := by
  by_cases h0 : q < 0
  · rw [ratTrunc_neg h0]
    have l1 := Int.floor_le (-q)
    have l2 : 0 ≤ ⌊-q⌋ := Int.floor_nonneg.mpr (by linarith)
    have l3 : (0 : Rat) ≤ ⌊-q⌋ := by exact_mod_cast l2
    push_cast
    rw [abs_neg, abs_of_nonneg l3, abs_of_neg h0]
    exact l1
  · have h0 := not_lt.mp h0
    rw [ratTrunc_nonneg h0]
    have l2 : 0 ≤ ⌊q⌋ := Int.floor_nonneg.mpr h0
    have l3 : (0 : Rat) ≤ ⌊q⌋ := by exact_mod_cast l2
    rw [abs_of_nonneg l3, abs_of_nonneg h0]
    exact Int.floor_le q

variable {src : GImage Rat} {w h : Nat} {f : Nat → Nat → Rat} {xp yp M : Rat}

/-- Each pixel is an integer. -/
theorem rotatePixelF32Fl_spec (hs : src.Shows w h f) (hf : ∀ x y, x < w → y < h → |f x y| ≤ M) (hM0 : 0 ≤ M) (hM : M ≤ 1000000)
    (hx : |xp| ≤ 16777216) (hy : |yp| ≤ 16777216) :
    ∃ n : Int, rotatePixelF32Fl w h src.data src.stride xp yp = .ok n ∧ |(n : Rat)| ≤ 901 / 100 * M + 1 / 1000000 := by
  have ax := abs_le.mp hx
  have ay := abs_le.mp hy
  have rx : IntRange xp := ⟨by linarith [ax.1], by linarith [ax.2]⟩
  have ry : IntRange yp := ⟨by linarith [ay.1], by linarith [ay.2]⟩
  have hidx : ∀ (n : Nat) (i : Int), i ≠ 2147483647 →
      warpIndex .black n i = if i < 0 ∨ i ≥ (n : Int) - 1 then .ok none else .ok (some (i, i + 1)) := by
    intro n i hi
    unfold warpIndex
    simp only
    rw [if_neg hi]
  have zero : ∃ n : Int, (.ok 0 : Res Rat) = .ok n ∧ |(n : Rat)| ≤ 901 / 100 * M + 1 / 1000000 := by
    refine ⟨0, by norm_num, ?_⟩
    rw [Int.cast_zero, abs_zero]
    linarith
  unfold rotatePixelF32Fl
  rw [(truncInt_fits rx).1, (truncInt_fits ry).1]
  simp only [Res.ok_bind]
  rw [hidx w _ (truncInt_fits rx).2, hidx h _ (truncInt_fits ry).2]
  by_cases cx : ratTrunc xp < 0 ∨ ratTrunc xp ≥ (w : Int) - 1
  · rw [if_pos cx]
    simp only [Res.ok_bind]
    by_cases cy : ratTrunc yp < 0 ∨ ratTrunc yp ≥ (h : Int) - 1
    · rw [if_pos cy]; exact zero
    · rw [if_neg cy]; exact zero
  rw [if_neg cx]
  simp only [Res.ok_bind]
  by_cases cy : ratTrunc yp < 0 ∨ ratTrunc yp ≥ (h : Int) - 1
  · rw [if_pos cy]; exact zero
  rw [if_neg cy]
  simp only [Res.ok_bind]
  rw [readFour_spec hs (by omega) (by omega) (by omega) (by omega)]
  simp only [Res.ok_bind]
  have hb := bilinearFl_bound (f32_trunc_frac hx) (f32_trunc_frac hy)
    (hf (ratTrunc xp).toNat (ratTrunc yp).toNat (by omega) (by omega)) (hf (ratTrunc xp + 1).toNat (ratTrunc yp).toNat (by omega) (by omega))
    (hf (ratTrunc xp).toNat (ratTrunc yp + 1).toNat (by omega) (by omega))
    (hf (ratTrunc xp + 1).toNat (ratTrunc yp + 1).toNat (by omega) (by omega))
  have ht := trunc_abs (bilinearFl (f32 (xp - f32 (ratTrunc xp))) (f32 (yp - f32 (ratTrunc yp))) (f (ratTrunc xp).toNat (ratTrunc yp).toNat)
    (f (ratTrunc xp + 1).toNat (ratTrunc yp).toNat) (f (ratTrunc xp).toNat (ratTrunc yp + 1).toNat)
    (f (ratTrunc xp + 1).toNat (ratTrunc yp + 1).toNat))
  have hb' := abs_le.mp hb
  rw [(truncInt_fits ⟨by linarith [hb'.1], by linarith [hb'.2]⟩).1]
  refine ⟨_, ?_, ht.trans hb⟩
  have hi : |ratTrunc (bilinearFl (f32 (xp - f32 (ratTrunc xp))) (f32 (yp - f32 (ratTrunc yp))) (f (ratTrunc xp).toNat (ratTrunc yp).toNat)
      (f (ratTrunc xp + 1).toNat (ratTrunc yp).toNat) (f (ratTrunc xp).toNat (ratTrunc yp + 1).toNat)
      (f (ratTrunc xp + 1).toNat (ratTrunc yp + 1).toNat))| ≤ 16777216 := by
    have := ht.trans hb
    have h2 := this.trans (show 901 / 100 * M + 1 / 1000000 ≤ 16777216 by linarith)
    exact_mod_cast h2
  simp only [Res.ok_bind, Res.pure_eq]
  rw [f32_int hi]

/-- Positions of the exact rotation lie within four times the sides. -/
theorem rot_far {k : Rat} (hk : k = 1 ∨ k = -1) {dw dh sw sh N x y : Nat} (_hN : N ≤ 500000) (h1 : dw ≤ N) (h2 : dh ≤ N) (h3 : sw ≤ N)
    (h4 : sh ≤ N) (hx : x < dw) (hy : y < dh) :
    |y * rotateT sqrt2Inv k dw dh sw sh 3 + rotateT sqrt2Inv k dw dh sw sh 6 + x * rotateT sqrt2Inv k dw dh sw sh 0| ≤ 4 * (N : Rat) ∧
      |y * rotateT sqrt2Inv k dw dh sw sh 4 + rotateT sqrt2Inv k dw dh sw sh 7 + x * rotateT sqrt2Inv k dw dh sw sh 1| ≤ 4 * (N : Rat) := by
  have d1 : (dw : Rat) ≤ N := by exact_mod_cast h1
  have d2 : (dh : Rat) ≤ N := by exact_mod_cast h2
  have d3 : (sw : Rat) ≤ N := by exact_mod_cast h3
  have d4 : (sh : Rat) ≤ N := by exact_mod_cast h4
  have p1 : (0 : Rat) ≤ dw := by positivity
  have p2 : (0 : Rat) ≤ dh := by positivity
  have p3 : (0 : Rat) ≤ sw := by positivity
  have p4 : (0 : Rat) ≤ sh := by positivity
  have hy' : (y : Rat) ≤ N := by exact_mod_cast (by omega : y ≤ N)
  have hx' : (x : Rat) ≤ N := by exact_mod_cast (by omega : x ≤ N)
  have y0 : (0 : Rat) ≤ y := by positivity
  have x0 : (0 : Rat) ≤ x := by positivity
  simp only [rotateT, sqrt2Inv_val]
  rcases hk with e | e <;> rw [e] <;> constructor <;> rw [abs_le] <;> constructor <;> linarith

/-- C160. A rotated `float` image has only integers, for all images with samples up to one million and sides up to 500000. -/
theorem c160_integers (cw : Bool) {dest src : GImage Rat} {f : Nat → Nat → Rat} {N : Nat} (hd : dest.Wf)
    (hs : src.Shows src.width src.height f) (hf : ∀ x y, x < src.width → y < src.height → |f x y| ≤ M) (hM0 : 0 ≤ M) (hM : M ≤ 1000000)
    (hN : N ≤ 500000) (h1 : dest.width ≤ N) (h2 : dest.height ≤ N) (h3 : src.width ≤ N)
    (h4 : src.height ≤ N) :
    ∃ (d : GImage Rat) (g : Nat → Nat → Int), rotate45F32Fl cw dest src = .ok d ∧ d.Wf ∧
      d.Shows dest.width dest.height (fun x y => (g x y : Rat)) ∧
      ∀ x y, x < dest.width → y < dest.height → |(g x y : Rat)| ≤ 901 / 100 * M + 1 / 1000000 := by
  have hk : (if cw = true then 1 else -1 : Rat) = 1 ∨ (if cw = true then 1 else -1 : Rat) = -1 := by cases cw <;> simp
  unfold rotate45F32Fl
  simp only
  generalize (if cw = true then 1 else -1 : Rat) = k at hk
  have hc : f32 (k * sqrt2Inv) = k * sqrt2Inv := by
    rw [sqrt2Inv_val]
    rcases hk with e | e <;> rw [e] <;> decide +kernel
  obtain ⟨t, ht⟩ : ∃ t, t = rotateTFl k dest.width dest.height src.width src.height := ⟨_, rfl⟩
  have pix : ∀ x y : Nat, x < dest.width → y < dest.height → ∃ n : Int,
      rotatePixelF32Fl src.width src.height src.data src.stride (posAfter (rowStart y (t 3) (t 6)) (t 0) x)
        (posAfter (rowStart y (t 4) (t 7)) (t 1) x) = .ok n ∧ |(n : Rat)| ≤ 901 / 100 * M + 1 / 1000000 := by
    intro x y hx hy
    obtain ⟨px, py⟩ := c159_position hk hN h1 h2 h3 h4 hx hy ht rfl
    obtain ⟨qx, qy⟩ := rot_far hk hN h1 h2 h3 h4 hx hy
    have nN : (N : Rat) ≤ 500000 := by exact_mod_cast hN
    have n0 : (0 : Rat) ≤ N := by positivity
    have he : ((N : Rat) + 1) * (N + 2) ≤ 500001 * 500002 := mul_le_mul (by linarith) (by linarith) (by linarith) (by norm_num)
    have px' := abs_le.mp px
    have py' := abs_le.mp py
    have qx' := abs_le.mp qx
    have qy' := abs_le.mp qy
    refine rotatePixelF32Fl_spec hs hf hM0 hM ?_ ?_
    · rw [abs_le]
      constructor <;> linarith [px'.1, px'.2, qx'.1, qx'.2]
    · rw [abs_le]
      constructor <;> linarith [py'.1, py'.2, qy'.1, qy'.2]
  obtain ⟨g, hg⟩ : ∃ g : Nat → Nat → Int, ∀ x y, x < dest.width → y < dest.height →
      rotatePixelF32Fl src.width src.height src.data src.stride (posAfter (rowStart y (t 3) (t 6)) (t 0) x)
        (posAfter (rowStart y (t 4) (t 7)) (t 1) x) = .ok (g x y : Rat) ∧ |(g x y : Rat)| ≤ 901 / 100 * M + 1 / 1000000 := by
    refine ⟨fun x y => if hc : x < dest.width ∧ y < dest.height then (pix x y hc.1 hc.2).choose else 0, fun x y hx hy => ?_⟩
    simp only [dif_pos (And.intro hx hy)]
    exact (pix x y hx hy).choose_spec
  obtain ⟨d, e1, hF⟩ := fill_spec (st := dest.stride) (H := dest.height) (w := dest.width) (f := fun x y => (g x y : Rat)) (d0 := dest.data)
    (body := fun y x d => do
      let b ← rotatePixelF32Fl src.width src.height src.data src.stride (posAfter (rowStart y (t 3) (t 6)) (t 0) x)
        (posAfter (rowStart y (t 4) (t 7)) (t 1) x)
      writeAt d (y * dest.stride + x) b) hd.stride_ge hd.length_eq (by
      intro y x d' hy hx hd'
      rw [(hg x y hx hy).1]
      simp only [Res.ok_bind]
      exact writeAt_ok _ (by rw [hd']; exact pixIdx_lt (by have := hd.stride_ge; omega) hy))
  refine ⟨{ dest with data := d }, g, ?_, ⟨hd.stride_ge, hF.1⟩, ⟨rfl, rfl, fun x y hx hy => hF.2 x y hx (Or.inl hy)⟩,
    fun x y hx hy => (hg x y hx hy).2⟩
  refine Eq.trans (b := (.ok d : Res (List Rat)) >>= fun d => pure { dest with data := d }) ?_ rfl
  rw [← e1]
  congr 1
  refine forLoop_congr_body dest.height _ _ ?_ dest.height 0 dest.data (by omega)
  intro y d hy
  have s1 : f32 (f32 (f32 (k * f32 (y : Rat)) * sqrt2Inv) + rotTx k dest.width dest.height src.width) = rowStart y (t 3) (t 6) := by
    unfold rowStart
    rw [f32_sign hk (by omega), f32_nat (by omega), ht]
    simp only [rotateTFl]
    rw [show k * (y : Rat) * sqrt2Inv = y * (k * sqrt2Inv) by ring]
  have s3 : f32 (f32 (f32 (y : Rat) * sqrt2Inv) + rotTy k dest.width dest.height src.height) = rowStart y (t 4) (t 7) := by
    rw [ht]
    rfl
  have s2 : ∀ q : Rat, f32 (q - f32 (k * sqrt2Inv)) = posStep q (t 1) := by
    intro q
    unfold posStep
    rw [hc, ht]
    simp only [rotateTFl]
    rw [sub_eq_add_neg]
  have s4 : ∀ q : Rat, f32 (q + sqrt2Inv) = posStep q (t 0) := by
    intro q
    rw [ht]
    rfl
  rw [s1, s3]
  simp only [s2, s4]
  have := forLoop_carry dest.width (fun x d => do
    let b ← rotatePixelF32Fl src.width src.height src.data src.stride (posAfter (rowStart y (t 3) (t 6)) (t 0) x)
        (posAfter (rowStart y (t 4) (t 7)) (t 1) x)
    writeAt d (y * dest.stride + x) b) (fun x (s : List Rat × Rat × Rat) => do
      let b ← rotatePixelF32Fl src.width src.height src.data src.stride s.2.1 s.2.2
      let d ← writeAt s.1 (y * dest.stride + x) b
      pure (d, posStep s.2.1 (t 0), posStep s.2.2 (t 1)))
    (fun x => (posAfter (rowStart y (t 3) (t 6)) (t 0) x, posAfter (rowStart y (t 4) (t 7)) (t 1) x)) (by
        intro x d hx
        simp only [posAfter]
        cases rotatePixelF32Fl src.width src.height src.data src.stride (posAfter (rowStart y (t 3) (t 6)) (t 0) x)
          (posAfter (rowStart y (t 4) (t 7)) (t 1) x) <;> rfl) dest.width 0 d (by omega)
  simp only [posAfter] at this
  rw [this]
  cases forLoop dest.width (fun x d => do
    let b ← rotatePixelF32Fl src.width src.height src.data src.stride (posAfter (rowStart y (t 3) (t 6)) (t 0) x)
        (posAfter (rowStart y (t 4) (t 7)) (t 1) x)
    writeAt d (y * dest.stride + x) b) 0 d <;> rfl

/-- C160. So every dark image becomes black: all samples up to one tenth are lost. -/
theorem c160_dark (cw : Bool) {dest src : GImage Rat} {f : Nat → Nat → Rat} {N : Nat} (hd : dest.Wf)
    (hs : src.Shows src.width src.height f) (hf : ∀ x y, x < src.width → y < src.height → |f x y| ≤ 1 / 10)
    (hN : N ≤ 500000) (h1 : dest.width ≤ N) (h2 : dest.height ≤ N) (h3 : src.width ≤ N)
    (h4 : src.height ≤ N) :
    ∃ d : GImage Rat, rotate45F32Fl cw dest src = .ok d ∧ d.Wf ∧ d.Shows dest.width dest.height (fun _ _ => 0) := by
  obtain ⟨d, g, e, hw', hs', hg⟩ := c160_integers cw hd hs hf (by norm_num) (by norm_num) hN h1 h2 h3 h4
  obtain ⟨a1, a2, a3⟩ := hs'
  refine ⟨d, e, hw', a1, a2, fun x y hx hy => ?_⟩
  have a := a3 x y hx hy
  have b := abs_le.mp (hg x y hx hy)
  have c1 : (-1 : Rat) < g x y := by linarith [b.1]
  have c2 : (g x y : Rat) < 1 := by linarith [b.2]
  have c3 : -1 < g x y := by exact_mod_cast c1
  have c4 : g x y < 1 := by exact_mod_cast c2
  have c5 : g x y = 0 := by omega
  simp only [c5, Int.cast_zero] at a
  exact a

example : rotate45F32Fl true ⟨1, 1, 1, [7]⟩ ⟨3, 3, 3, [1/2, 1/2, 1/2, 1/2, 9/10, 1/2, 1/2, 1/2, 1/2]⟩ = .ok ⟨1, 1, 1, [0]⟩ := by
  decide +kernel

end Nx
