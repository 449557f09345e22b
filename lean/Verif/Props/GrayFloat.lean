import Verif.Props.KeyPos
import Verif.Props.ImageConv

/-!
# Gray values of `float` images, as colours and back
-/

namespace Nx

/-- The relative error of numbers that are not tiny. -/
theorem f32_rel_small {q : Rat} (h : (2 : Rat) ^ (-126 : Int) ≤ q) : |f32 q - q| ≤ q / 16777216 := by
  have hq : 0 < q := lt_of_lt_of_le (two_zpow_pos _) h
  have h1 := fround_rel (p := 24) (emin := -149) (q := q) (by
    rw [abs_of_pos hq]
    refine le_trans (le_of_eq ?_) h
    norm_num)
  rw [abs_of_pos hq] at h1
  norm_num at h1
  exact h1

/-- **C147** A gray value that is converted to a colour and back changes by less than four units of the 24th digit, if it is not tiny. -/
theorem c147_value_partial {v : Rat} (h0 : (2 : Rat) ^ (-120 : Int) ≤ v) (h1 : v ≤ 1) : |grayF32 f32 v v v - v| ≤ v / 4194304 := by
  have hv : 0 < v := lt_of_lt_of_le (two_zpow_pos _) h0
  have key : ∀ q, v / 64 ≤ q → |f32 q - q| ≤ q / 16777216 := fun q hq => f32_rel_small (by
    refine le_trans ?_ hq
    rw [le_div_iff₀ (by norm_num)]
    refine le_trans (le_of_eq ?_) h0
    norm_num)
  have ha := key (v * (40265320 / 134217728)) (by linarith)
  have hb := key (v * (79188456 / 134217728)) (by linarith)
  have hc := key (v * (14763950 / 134217728)) (by linarith)
  unfold grayF32
  simp only []
  generalize f32 (v * (40265320 / 134217728)) = a at ha
  generalize f32 (v * (79188456 / 134217728)) = b at hb
  generalize f32 (v * (14763950 / 134217728)) = c at hc
  rw [abs_le] at ha hb hc
  have hs := key (a + b) (by linarith [ha.1, hb.1])
  generalize f32 (a + b) = s at hs
  rw [abs_le] at hs
  have ht := key (s + c) (by linarith [ha.1, hb.1, hc.1, hs.1])
  generalize f32 (s + c) = t at ht
  rw [abs_le] at ht
  have l1 : t - v ≤ v / 4194304 := by linarith [ha.2, hb.2, hc.2, hs.2, ht.2]
  have l2 : -(v / 4194304) ≤ t - v := by linarith [ha.1, hb.1, hc.1, hs.1, ht.1]
  split
  · rw [abs_le]; constructor <;> linarith
  · split
    · rw [abs_le]; constructor <;> linarith
    · rw [abs_le]; exact ⟨l2, l1⟩

example : |grayF32 f32 (1 / 2) (1 / 2) (1 / 2) - 1 / 2| ≤ (1 / 2) / 4194304 := c147_value_partial (by norm_num) (by norm_num)

/-- **C147** Black and white stay. -/
theorem c147_black_white : grayF32 f32 0 0 0 = 0 ∧ grayF32 f32 1 1 1 = 1 := by
  constructor <;> decide +kernel

/-- **C147** Other values need not stay, nor is one conversion as good as two: this is the gray value 79 of 255, as a `float`. -/
theorem c147_value_false : f32 (79 / 255) = 10395295 / 33554432 ∧
    grayF32 f32 (10395295 / 33554432) (10395295 / 33554432) (10395295 / 33554432) = 10395294 / 33554432 ∧
    grayF32 f32 (10395294 / 33554432) (10395294 / 33554432) (10395294 / 33554432) = 10395293 / 33554432 := by
  refine ⟨?_, ?_, ?_⟩ <;> decide +kernel

/-- **C147** A brighter colour is not darker in gray, in spite of rounding. -/
theorem c147_order {r g b r' g' b' : Rat} (hr : r ≤ r') (hg : g ≤ g') (hb : b ≤ b') : grayF32 f32 r g b ≤ grayF32 f32 r' g' b' := by
  have ha := f32_mono (show r * (40265320 / 134217728) ≤ r' * (40265320 / 134217728) by linarith)
  have hb := f32_mono (show g * (79188456 / 134217728) ≤ g' * (79188456 / 134217728) by linarith)
  have hc := f32_mono (show b * (14763950 / 134217728) ≤ b' * (14763950 / 134217728) by linarith)
  have ht := f32_mono (add_le_add (f32_mono (add_le_add ha hb)) hc)
  unfold grayF32
  simp only []
  generalize f32 (f32 (f32 (r * (40265320 / 134217728)) + f32 (g * (79188456 / 134217728))) + f32 (b * (14763950 / 134217728))) = t at *
  generalize f32 (f32 (f32 (r' * (40265320 / 134217728)) + f32 (g' * (79188456 / 134217728))) + f32 (b' * (14763950 / 134217728))) = t' at *
  repeat' split
  all_goals linarith

example : grayF32 f32 (1 / 4) (1 / 2) 1 ≤ grayF32 f32 (1 / 3) (1 / 2) 1 := c147_order (by norm_num) (by norm_num) (by norm_num)

/-- **C147** A gray image with values between 0 and 1, none of them tiny but not black, is converted to colours and back: each
value changes by less than four units of the 24th digit and black pixels stay. -/
theorem c147_image_partial {img : SImg Rat} {w h : Nat} {f : Nat → Nat → Rat} (hs : img.ShowsGray w h f) (hw : 0 < w) (hh : 0 < h)
    (h1 : 4 * w ≤ 2147483647) (h2 : 4 * w * h ≤ 2147483647)
    (hf : ∀ x y, x < w → y < h → f x y = 0 ∨ (2 : Rat) ^ (-120 : Int) ≤ f x y ∧ f x y ≤ 1) (junk : Nat → Rat) :
    ∃ mid out g, convertType junk 1 (grayF32 f32) img true = .ok mid ∧ convertTypeMain junk 1 (grayF32 f32) mid false = .ok out ∧
      out.ShowsGray w h g ∧ ∀ x y, x < w → y < h → |g x y - f x y| ≤ f x y / 4194304 := by
  obtain ⟨mid, e, hm⟩ := c94_to_rgba hs hw hh h1 h2 junk 1 (grayF32 f32)
  obtain ⟨out, e', ho⟩ := c94_to_gray hm hw hh (by nlinarith) junk 1 (grayF32 f32)
  refine ⟨mid, out, _, e, e', ho, fun x y hx hy => ?_⟩
  change |grayF32 f32 (f x y) (f x y) (f x y) - f x y| ≤ _
  rcases hf x y hx hy with h0 | ⟨h0, h1⟩
  · rw [h0, c147_black_white.1]; norm_num
  · exact c147_value_partial h0 h1

example : ∃ mid out g, convertType (fun _ => 9) 1 (grayF32 f32) ⟨false, 2, 1, 3, [0, 3 / 4, 7]⟩ true = .ok mid ∧
    convertTypeMain (fun _ => 9) 1 (grayF32 f32) mid false = .ok out ∧ out.ShowsGray 2 1 g ∧ ∀ x y, x < 2 → y < 1 →
      |g x y - (if x = 0 then 0 else 3 / 4)| ≤ (if x = 0 then 0 else 3 / 4) / 4194304 := by
  refine c147_image_partial (w := 2) (h := 1) (f := fun x _ => if x = 0 then 0 else 3 / 4) ⟨⟨by decide, by decide⟩, rfl, rfl, rfl, ?_⟩ (by norm_num)
    (by norm_num) (by norm_num) (by norm_num) (fun x y hx _ => ?_) _
  · intro x y hx hy
    have hy0 : y = 0 := by omega
    subst hy0
    rcases (by omega : x = 0 ∨ x = 1) with rfl | rfl <;> rfl
  · rcases (by omega : x = 0 ∨ x = 1) with rfl | rfl
    · exact Or.inl rfl
    · right
      constructor <;> norm_num

end Nx
