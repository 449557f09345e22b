import Verif.Model.SmoothFloat
import Verif.Props.BoxFloat

/-! # C152: smoothing in `float` -/

namespace Nx

/-! ## One line -/

/-- The weighted sum around `c` as it is computed, up to the distance `k`. -/
def accF (w x : Nat → Rat) (c : Nat) : Nat → Rat
  | 0 => f32 (w 0 * x c)
  | k + 1 => f32 (accF w x c k + f32 (w (k + 1) * f32 (x (c - (k + 1)) + x (c + (k + 1)))))

theorem convInnerF_ok {data kernel : List Rat} {x w : Nat → Rat} {nk c : Nat}
    (hw : ∀ k (h : k < kernel.length), k < nk → kernel[k] = w k) (hkl : nk ≤ kernel.length)
    (hd : ∀ j (h : j < data.length), c + 1 - nk ≤ j → data[j] = x j) (hc1 : nk ≤ c + 1) (hc2 : c + nk ≤ data.length) :
    ∀ (m k : Nat), m = nk - (k + 1) → k + 1 ≤ nk →
      convInnerF data kernel nk c (k + 1) (accF w x c k) = .ok (accF w x c (nk - 1)) := by
  intro m
  induction m with
  | zero =>
    intro k hm hk
    have : nk = k + 1 := by omega
    subst this
    rw [convInnerF, if_neg (by omega)]; rfl
  | succ m ih =>
    intro k hm hk
    rw [convInnerF, if_pos (by omega), readAt_ok (by omega)]
    simp only [Res.ok_bind]
    rw [if_pos (by omega), readAt_ok (show c - (k + 1) < data.length by omega), readAt_ok (show c + (k + 1) < data.length by omega)]
    simp only [Res.ok_bind]
    rw [hw (k + 1) (by omega) (by omega), hd (c - (k + 1)) (by omega) (by omega), hd (c + (k + 1)) (by omega) (by omega)]
    exact ih (k + 1) (by omega) (by omega)

theorem convOuterF_ok {data0 kernel : List Rat} {x w : Nat → Rat} {nk n : Nat}
    (hw : ∀ k (h : k < kernel.length), k < nk → kernel[k] = w k) (hkl : nk ≤ kernel.length) (hnk : 0 < nk)
    (hlen : n + 2 * nk - 2 ≤ data0.length) :
    ∀ (m i : Nat) (data : List Rat), m = n - i → data.length = data0.length →
      (∀ j (h : j < data.length), data[j] = if j < i then accF w x (j + nk - 1) (nk - 1) else x j) → i ≤ n →
      ∃ out, convOuterF kernel nk n i data = .ok out ∧ out.length = data0.length ∧
        ∀ j (h : j < out.length), out[j] = if j < n then accF w x (j + nk - 1) (nk - 1) else x j := by
  intro m
  induction m with
  | zero =>
    intro i data hm hl hinv hi
    have : i = n := by omega
    subst this
    rw [convOuterF, if_neg (by omega)]
    exact ⟨data, rfl, hl, hinv⟩
  | succ m ih =>
    intro i data hm hl hinv hi
    rw [convOuterF, if_pos (by omega), readAt_ok (show 0 < kernel.length by omega),
      readAt_ok (show i + nk - 1 < data.length by omega)]
    simp only [Res.ok_bind]
    have hbase : f32 (kernel[0] * data[i + nk - 1]) = accF w x (i + nk - 1) 0 := by
      rw [hw 0 (by omega) hnk, hinv (i + nk - 1) (by omega), if_neg (by omega)]
      rfl
    have := convInnerF_ok (x := x) (w := w) (data := data) (c := i + nk - 1) hw hkl (by
      intro j h hj
      rw [hinv j h, if_neg (by omega)]) (by omega) (by omega) _ 0 rfl (by omega)
    rw [hbase]
    rw [Nat.zero_add] at this
    rw [this]
    simp only [Res.ok_bind]
    rw [writeAt_ok _ (show i < data.length by omega)]
    simp only [Res.ok_bind]
    refine ih (i + 1) _ (by omega) (by simpa using hl) ?_ (by omega)
    intro j h
    rw [List.length_set] at h
    rw [List.getElem_set]
    by_cases hij : i = j
    · subst hij
      rw [if_pos rfl, if_pos (by omega)]
    · rw [if_neg hij, hinv j h]
      by_cases hj : j < i
      · rw [if_pos hj, if_pos (by omega)]
      · rw [if_neg hj, if_neg (by omega)]

theorem accF_congr {w x y : Nat → Rat} {c : Nat} : ∀ {k : Nat}, (∀ j ≤ c + k, x j = y j) → accF w x c k = accF w y c k
  | 0, h => by
    show f32 (w 0 * x c) = f32 (w 0 * y c)
    rw [h c (by omega)]
  | k + 1, h => by
    show f32 (accF w x c k + f32 (w (k + 1) * f32 (x (c - (k + 1)) + x (c + (k + 1))))) =
      f32 (accF w y c k + f32 (w (k + 1) * f32 (y (c - (k + 1)) + y (c + (k + 1)))))
    rw [accF_congr (fun j hj => h j (by omega)), h (c - (k + 1)) (by omega), h (c + (k + 1)) (by omega)]

/-- The weighted mean of a window as it is computed. -/
def symF (n nk : Nat) (w s : Nat → Rat) (x : Nat) : Rat := accF w (bordered n (nk - 1) s) (x + nk - 1) (nk - 1)

theorem symF_lineOp {n nk : Nat} (hn : 1 < n) (hnk : 1 < nk) {kernel : List Rat} {w : Nat → Rat} (hkl : nk ≤ kernel.length)
    (hw : ∀ k (h : k < kernel.length), k < nk → kernel[k] = w k) :
    LineOp n (nk - 1) (fun b => convolveSymF n b nk kernel) (symF n nk w) := by
  intro b s hl hb
  obtain ⟨out, e, ol, ho⟩ := convOuterF_ok (x := fun j => (b[j]?).getD 0) hw hkl (by omega) (n := n) (data0 := b) (by omega) _ 0 b rfl rfl
    (by
      intro j h
      rw [if_neg (by omega)]
      simp [List.getElem?_eq_getElem h]) (by omega)
  refine ⟨out, ?_, ol, ?_⟩
  · show convolveSymF n b nk kernel = _
    unfold convolveSymF
    rw [if_pos hn, if_pos hnk]
    exact e
  · intro x hx
    have hlt : x < out.length := by omega
    rw [List.getElem?_eq_getElem hlt, ho x hlt, if_pos hx]
    unfold symF
    rw [accF_congr (y := bordered n (nk - 1) s)]
    intro k hk
    rw [hb k (by omega)]
    rfl

/-! ## The kernel -/

/-- The sum as it is computed. -/
def kSumF (g : Nat → Rat) : Nat → Rat
  | 0 => f32 (g 0)
  | i + 1 => f32 (kSumF g i + f32 (2 * f32 (g (i + 1))))

/-- The kernel as it is computed. -/
def kernW (g : Nat → Rat) (nk i : Nat) : Rat := f32 (f32 (g i) / kSumF g (nk - 1))

theorem kernelFillF_ok {g : Nat → Rat} {nk : Nat} {k0 : List Rat} (hlen : nk ≤ k0.length) :
    ∀ (m i : Nat) (kernel : List Rat), m = nk - (i + 1) → i + 1 ≤ nk → kernel.length = k0.length →
      (∀ j (h : j < kernel.length), j < i + 1 → kernel[j] = f32 (g j)) →
      ∃ out, kernelFillF g nk (i + 1) kernel (kSumF g i) = .ok (out, kSumF g (nk - 1)) ∧ out.length = k0.length ∧
        ∀ j (h : j < out.length), j < nk → out[j] = f32 (g j) := by
  intro m
  induction m with
  | zero =>
    intro i kernel hm hi hl hinv
    have : nk = i + 1 := by omega
    subst this
    rw [kernelFillF, if_neg (by omega)]
    exact ⟨kernel, rfl, hl, hinv⟩
  | succ m ih =>
    intro i kernel hm hi hl hinv
    rw [kernelFillF, if_pos (by omega), writeAt_ok _ (show i + 1 < kernel.length by omega)]
    simp only [Res.ok_bind]
    rw [readAt_ok (by simpa using (show i + 1 < kernel.length by omega))]
    simp only [Res.ok_bind, List.getElem_set_self]
    refine ih (i + 1) _ (by omega) (by omega) (by simpa using hl) ?_
    intro j h hj
    rw [List.length_set] at h
    rw [List.getElem_set]
    by_cases hij : i + 1 = j
    · subst hij; rw [if_pos rfl]
    · rw [if_neg hij]; exact hinv j h (by omega)

theorem kernelScaleF_ok {nk : Nat} {k0 : List Rat} {sum : Rat} (hlen : nk ≤ k0.length) :
    ∀ (m i : Nat) (kernel : List Rat), m = nk - i → i ≤ nk → kernel.length = k0.length →
      (∀ j (h : j < kernel.length) (h' : j < k0.length), kernel[j] = if j < i then f32 (k0[j] / sum) else k0[j]) →
      ∃ out, kernelScaleF nk i kernel sum = .ok out ∧ out.length = k0.length ∧
        ∀ j (h : j < out.length) (h' : j < k0.length), out[j] = if j < nk then f32 (k0[j] / sum) else k0[j] := by
  intro m
  induction m with
  | zero =>
    intro i kernel hm hi hl hinv
    have : i = nk := by omega
    subst this
    rw [kernelScaleF, if_neg (by omega)]
    exact ⟨kernel, rfl, hl, hinv⟩
  | succ m ih =>
    intro i kernel hm hi hl hinv
    rw [kernelScaleF, if_pos (by omega), readAt_ok (show i < kernel.length by omega)]
    simp only [Res.ok_bind]
    rw [writeAt_ok _ (show i < kernel.length by omega)]
    simp only [Res.ok_bind]
    refine ih (i + 1) _ (by omega) (by omega) (by simpa using hl) ?_
    intro j h h'
    rw [List.length_set] at h
    rw [List.getElem_set]
    by_cases hij : i = j
    · subst hij
      rw [if_pos rfl, if_pos (by omega), hinv i h h', if_neg (by omega)]
    · rw [if_neg hij, hinv j h h']
      by_cases hj : j < i
      · rw [if_pos hj, if_pos (by omega)]
      · rw [if_neg hj, if_neg (by omega)]

theorem kernelSymF_ok (g : Nat → Rat) (nk : Nat) (kernel : List Rat) (hnk : 1 < nk) (hlen : nk ≤ kernel.length) :
    ∃ out, kernelSymF g nk kernel = .ok out ∧ out.length = kernel.length ∧
      ∀ j (h : j < out.length), j < nk → out[j] = kernW g nk j := by
  unfold kernelSymF
  rw [if_pos hnk, writeAt_ok _ (show 0 < kernel.length by omega)]
  simp only [Res.ok_bind]
  rw [readAt_ok (by simpa using (show 0 < kernel.length by omega))]
  simp only [Res.ok_bind, List.getElem_set_self]
  obtain ⟨k1, a1, a2, a3⟩ := kernelFillF_ok (g := g) (nk := nk) (k0 := kernel) hlen _ 0 (kernel.set 0 (f32 (g 0))) rfl (by omega)
    (by simp) (by
      intro j h hj
      have : j = 0 := by omega
      subst this
      simp)
  have a1' : kernelFillF g nk 1 (kernel.set 0 (f32 (g 0))) (f32 (g 0)) = .ok (k1, kSumF g (nk - 1)) := a1
  rw [a1']
  simp only [Res.ok_bind]
  obtain ⟨k2, b1, b2, b3⟩ := kernelScaleF_ok (nk := nk) (k0 := k1) (sum := kSumF g (nk - 1)) (by omega) _ 0 k1 rfl (by omega) rfl
    (by intro j h h'; rw [if_neg (by omega)])
  refine ⟨k2, b1, by omega, ?_⟩
  intro j h hj
  rw [b3 j h (by omega), if_pos hj, a3 j (by omega) hj]
  rfl

/-- Values of a Gaussian function: one in the middle, otherwise from zero to one. -/
structure Bell (g : Nat → Rat) : Prop where
  zero : g 0 = 1
  nonneg : ∀ i, 0 ≤ g i
  le_one : ∀ i, g i ≤ 1

theorem f32_one : f32 1 = 1 := by
  have := f32_nat (n := 1) (by norm_num)
  exact_mod_cast this

theorem bell_f32 {g : Nat → Rat} (hg : Bell g) (i : Nat) : 0 ≤ f32 (g i) ∧ f32 (g i) ≤ 1 ∧ |f32 (g i) - g i| ≤ 1 / 16777216 := by
  refine ⟨f32_nonneg (hg.nonneg i), ?_, f32_err_two (hg.nonneg i) (by linarith [hg.le_one i])⟩
  have := f32_mono (hg.le_one i)
  rwa [f32_one] at this

theorem f32_double {g : Nat → Rat} (i : Nat) : f32 (2 * f32 (g i)) = 2 * f32 (g i) := by
  apply fround_exact (by norm_num)
  obtain ⟨m, e, h1, h2, h3⟩ := fround_isFloat (p := 24) (emin := -149) (by norm_num) (g i)
  refine ⟨m, e + 1, h1, by omega, ?_⟩
  show 2 * fround 24 (-149) (g i) = _
  rw [h3, zpow_add₀ (by norm_num), zpow_one]
  ring

theorem winSum_near {f g : Nat → Rat} {d : Rat} (h : ∀ i, |f i - g i| ≤ d) (lo : Nat) : ∀ n : Nat,
    |winSum f lo n - winSum g lo n| ≤ n * d
  | 0 => by rw [winSum_zero, winSum_zero]; norm_num
  | n + 1 => by
    rw [winSum_last, winSum_last]
    have h1 := abs_le.mp (winSum_near h lo n)
    have h2 := abs_le.mp (h (lo + n))
    rw [abs_le]
    push_cast
    constructor <;> linarith [h1.1, h1.2, h2.1, h2.2]

/-- The sum of a symmetric kernel. -/
def fullSum (g : Nat → Rat) (i : Nat) : Rat := g 0 + 2 * winSum g 1 i

theorem fullSum_succ (g : Nat → Rat) (i : Nat) : fullSum g (i + 1) = fullSum g i + 2 * g (i + 1) := by
  unfold fullSum
  rw [winSum_last, Nat.add_comm 1 i]
  ring

theorem fullSum_mono {g : Nat → Rat} (h : ∀ i, 0 ≤ g i) {i j : Nat} (hij : i ≤ j) : fullSum g i ≤ fullSum g j := by
  induction hij with
  | refl => exact le_refl _
  | @step m _ ih =>
    rw [fullSum_succ]
    linarith [h (m + 1)]

theorem kSumF_near {g : Nat → Rat} (hg : Bell g) : ∀ i : Nat, i ≤ 8388608 →
    1 ≤ kSumF g i ∧ 1 ≤ fullSum (fun i => f32 (g i)) i ∧
      |kSumF g i - fullSum (fun i => f32 (g i)) i| ≤ i / 8388608 * fullSum (fun i => f32 (g i)) i
  | 0, _ => by
    have e : f32 (g 0) = 1 := by rw [hg.zero, f32_one]
    have e1 : kSumF g 0 = 1 := e
    have e2 : fullSum (fun i => f32 (g i)) 0 = 1 := by
      show f32 (g 0) + 2 * 0 = 1
      rw [e]
      norm_num
    rw [e1, e2]
    norm_num
  | i + 1, hi => by
    obtain ⟨h1, h2, h3⟩ := kSumF_near hg i (by omega)
    have hk := (bell_f32 hg (i + 1)).1
    have e1 : kSumF g (i + 1) = f32 (kSumF g i + 2 * f32 (g (i + 1))) := by
      show f32 (kSumF g i + f32 (2 * f32 (g (i + 1)))) = _
      rw [f32_double]
    rw [e1, fullSum_succ]
    generalize hE : fullSum (fun i => f32 (g i)) i = E at *
    generalize kSumF g i = S at *
    generalize f32 (g (i + 1)) = K at *
    have hq : 1 ≤ S + 2 * K := by linarith
    have hr := abs_le.mp (f32_rel hq)
    have h3' := abs_le.mp h3
    have hiq : (i : Rat) + 1 ≤ 8388608 := by exact_mod_cast hi
    have hi0 : (0 : Rat) ≤ i := Nat.cast_nonneg _
    have h4 : (i : Rat) / 8388608 * E ≤ (i : Rat) / 8388608 * (E + 2 * K) := by
      apply mul_le_mul_of_nonneg_left (by linarith)
      positivity
    have h5 : (i : Rat) / 8388608 * (E + 2 * K) ≤ 1 * (E + 2 * K) := by
      apply mul_le_mul_of_nonneg_right _ (by linarith)
      rw [div_le_one (by norm_num)]
      linarith
    refine ⟨?_, by linarith, ?_⟩
    · have := f32_mono hq
      rwa [f32_one] at this
    · push_cast
      have h6 : ((i : Rat) + 1) / 8388608 * (E + 2 * K) = (i : Rat) / 8388608 * (E + 2 * K) + (E + 2 * K) / 8388608 := by ring
      rw [h6, abs_le]
      constructor <;> linarith [hr.1, hr.2, h3'.1, h3'.2]

theorem fullSum_near {f g : Nat → Rat} {d : Rat} (h : ∀ i, |f i - g i| ≤ d) (i : Nat) :
    |fullSum f i - fullSum g i| ≤ (2 * i + 1) * d := by
  have h1 := abs_le.mp (winSum_near h 1 i)
  have h2 := abs_le.mp (h 0)
  unfold fullSum
  rw [abs_le]
  constructor <;> linarith [h1.1, h1.2, h2.1, h2.2]

theorem fullSum_div (g : Nat → Rat) (d : Rat) (i : Nat) : fullSum (fun j => g j / d) i = fullSum g i / d := by
  unfold fullSum
  rw [winSum_div]
  ring

theorem kernW_near {g : Nat → Rat} (hg : Bell g) {nk : Nat} (hnk : 1 < nk) (hnk2 : nk ≤ 4096) :
    (∀ i, 0 ≤ kernW g nk i) ∧ (∀ i, |kernW g nk i - g i / fullSum g (nk - 1)| ≤ nk / 2097152) ∧
      |fullSum (kernW g nk) (nk - 1) - 1| ≤ 3 * nk / 8388608 := by
  obtain ⟨n, rfl⟩ : ∃ n, nk = n + 1 := ⟨nk - 1, by omega⟩
  rw [Nat.add_sub_cancel]
  obtain ⟨h1, h2, h3⟩ := kSumF_near hg n (by omega)
  have hGE := fullSum_near (f := fun i => f32 (g i)) (g := g) (fun i => (bell_f32 hg i).2.2) n
  have hG1 : 1 ≤ fullSum g n := by
    have := fullSum_mono hg.nonneg (Nat.zero_le n)
    have e : fullSum g 0 = 1 := by
      show g 0 + 2 * 0 = 1
      rw [hg.zero]
      norm_num
    linarith
  have hw : ∀ i, kernW g (n + 1) i = f32 (f32 (g i) / kSumF g n) := fun _ => rfl
  have hn : (n : Rat) + 1 ≤ 4096 := by exact_mod_cast hnk2
  have hn0 : (0 : Rat) ≤ n := Nat.cast_nonneg _
  generalize hE : fullSum (fun i => f32 (g i)) n = E at *
  generalize hS : kSumF g n = S at *
  generalize hG : fullSum g n = G at *
  have hS0 : 0 < S := by linarith
  have hG0 : 0 < G := by linarith
  have hq : ∀ i, 0 ≤ f32 (g i) / S ∧ f32 (g i) / S ≤ 1 := by
    intro i
    obtain ⟨b1, b2, _⟩ := bell_f32 hg i
    refine ⟨div_nonneg b1 hS0.le, ?_⟩
    rw [div_le_one hS0]
    linarith
  have hround : ∀ i, |kernW g (n + 1) i - f32 (g i) / S| ≤ 1 / 16777216 := by
    intro i
    rw [hw]
    exact f32_err_two (hq i).1 (by linarith [(hq i).2])
  have h3' := abs_le.mp h3
  have hsmall : (n : Rat) / 8388608 * E ≤ 1 / 2 * E := by
    apply mul_le_mul_of_nonneg_right _ (by linarith)
    rw [div_le_iff₀ (by norm_num)]
    linarith
  have hES : E ≤ 2 * S := by linarith [h3'.1]
  have hGE' := abs_le.mp hGE
  have hEG : E ≤ 2 * G := by
    have : (2 * (n : Rat) + 1) * (1 / 16777216) ≤ 1 := by linarith
    linarith [hGE'.2]
  push_cast
  refine ⟨fun i => by rw [hw]; exact f32_nonneg (hq i).1, ?_, ?_⟩
  · intro i
    obtain ⟨b1, b2, b3⟩ := bell_f32 hg i
    have r1 := abs_le.mp (hround i)
    have e1 : f32 (g i) / S - g i / G = f32 (g i) / S * ((G - S) / G) + (f32 (g i) - g i) / G := by
      field_simp
      ring
    have hnE : (n : Rat) / 8388608 * E ≤ (n : Rat) / 8388608 * (2 * G) := mul_le_mul_of_nonneg_left hEG (by positivity)
    have hnG : (n : Rat) / 8388608 ≤ (n : Rat) / 8388608 * G := le_mul_of_one_le_right (by positivity) hG1
    have hGS : |(G - S) / G| ≤ 3 * n / 8388608 + 1 / 16777216 := by
      rw [abs_div, abs_of_pos hG0, div_le_iff₀ hG0, abs_le]
      have x1 : (3 * (n : Rat) / 8388608 + 1 / 16777216) * G = 3 * ((n : Rat) / 8388608 * G) + G / 16777216 := by ring
      rw [x1]
      constructor <;> linarith [h3'.1, h3'.2, hGE'.1, hGE'.2]
    have t1 : |f32 (g i) / S * ((G - S) / G)| ≤ 3 * n / 8388608 + 1 / 16777216 := by
      rw [abs_mul, abs_of_nonneg (hq i).1]
      calc f32 (g i) / S * |(G - S) / G| ≤ 1 * |(G - S) / G| := mul_le_mul_of_nonneg_right (hq i).2 (abs_nonneg _)
        _ ≤ _ := by rw [one_mul]; exact hGS
    have t2 : |(f32 (g i) - g i) / G| ≤ 1 / 16777216 := by
      rw [abs_div, abs_of_pos hG0, div_le_iff₀ hG0]
      linarith
    have t1' := abs_le.mp t1
    have t2' := abs_le.mp t2
    rw [abs_le]
    constructor <;> linarith [r1.1, r1.2, t1'.1, t1'.2, t2'.1, t2'.2]
  · have r := abs_le.mp (fullSum_near hround n)
    rw [fullSum_div (fun i => f32 (g i)) S n, hE] at r
    have hd : |E / S - 1| ≤ 2 * n / 8388608 := by
      have e1 : E / S - 1 = (E - S) / S := by field_simp
      rw [e1, abs_div, abs_of_pos hS0, div_le_iff₀ hS0]
      have hnE : (n : Rat) / 8388608 * E ≤ (n : Rat) / 8388608 * (2 * S) := mul_le_mul_of_nonneg_left hES (by positivity)
      have x1 : 2 * (n : Rat) / 8388608 * S = (n : Rat) / 8388608 * (2 * S) := by ring
      rw [x1, abs_le]
      constructor <;> linarith [h3'.1, h3'.2]
    have hd' := abs_le.mp hd
    rw [abs_le]
    constructor <;> linarith [r.1, r.2, hd'.1, hd'.2]

/-- C152, the kernel. Up to 4096 values, none of the kernel is negative, each is that of the exact kernel up to `nk / 2^21`, and the
sum is one up to `3 * nk / 2^23`. -/
theorem c152_kernel (g : Nat → Rat) (hg : Bell g) (nk : Nat) (kernel : List Rat) (hnk : 1 < nk) (hnk2 : nk ≤ 4096)
    (hlen : nk ≤ kernel.length) :
    ∃ out w, kernelSymF g nk kernel = .ok out ∧ out.length = kernel.length ∧ (∀ j < nk, out[j]? = some (w j)) ∧
      (∀ j, 0 ≤ w j) ∧ (∀ j, |w j - g j / (g 0 + 2 * winSum g 1 (nk - 1))| ≤ nk / 2097152) ∧
      |w 0 + 2 * winSum w 1 (nk - 1) - 1| ≤ 3 * nk / 8388608 := by
  obtain ⟨out, e, l, h⟩ := kernelSymF_ok g nk kernel hnk hlen
  obtain ⟨n1, n2, n3⟩ := kernW_near hg hnk hnk2
  refine ⟨out, kernW g nk, e, l, ?_, n1, n2, n3⟩
  intro j hj
  rw [List.getElem?_eq_getElem (by omega), h j (by omega) hj]

/-! ## Bytes -/

/-- The weighted sum up to the distance `k`. -/
def accE (w x : Nat → Rat) (c k : Nat) : Rat := winSum (fun j => w (absDiff j c) * x j) (c - k) (2 * k + 1)

theorem accE_zero (w x : Nat → Rat) (c : Nat) : accE w x c 0 = w 0 * x c := by
  unfold accE
  rw [winSum_last, winSum_zero]
  have e : absDiff c c = 0 := by unfold absDiff; omega
  simp only [Nat.sub_zero, Nat.mul_zero, Nat.add_zero, e, zero_add]

theorem accE_succ (w x : Nat → Rat) {c k : Nat} (h : k + 1 ≤ c) :
    accE w x c (k + 1) = accE w x c k + w (k + 1) * (x (c - (k + 1)) + x (c + (k + 1))) := by
  unfold accE
  have e1 : 2 * (k + 1) + 1 = (2 * k + 1 + 1) + 1 := by omega
  have e3 : c - (k + 1) + 1 = c - k := by omega
  have e4 : c - (k + 1) + (2 * k + 1 + 1) = c + (k + 1) := by omega
  rw [e1, winSum_last, winSum_first, e3, e4]
  have e5 : absDiff (c - (k + 1)) c = k + 1 := by unfold absDiff; omega
  have e6 : absDiff (c + (k + 1)) c = k + 1 := by unfold absDiff; omega
  simp only [e5, e6]
  ring

theorem accF_near {w : Nat → Rat} {z : Nat → Nat} {c nk : Nat} (hw : ∀ i, 0 ≤ w i) (hz : ∀ i, z i ≤ 255) (hnk : nk ≤ 4096)
    (hW : 255 * fullSum w (nk - 1) ≤ 511 / 2) (hc : nk ≤ c + 1) : ∀ k, k + 1 ≤ nk →
    0 ≤ accF w (fun j => z j) c k ∧ 0 ≤ accE w (fun j => z j) c k ∧ accE w (fun j => z j) c k ≤ 255 * fullSum w k ∧
      |accF w (fun j => z j) c k - accE w (fun j => z j) c k| ≤ (2 * k + 1) / 65536
  | 0, hk => by
    have hm := fullSum_mono hw (show 0 ≤ nk - 1 by omega)
    have hz' : (z c : Rat) ≤ 255 := by exact_mod_cast hz c
    have h0 : fullSum w 0 = w 0 := by
      show w 0 + 2 * 0 = w 0
      ring
    have hp0 : 0 ≤ w 0 * (z c : Rat) := mul_nonneg (hw 0) (Nat.cast_nonneg _)
    have hp1 : w 0 * (z c : Rat) ≤ w 0 * 255 := mul_le_mul_of_nonneg_left hz' (hw 0)
    rw [accE_zero]
    show 0 ≤ f32 (w 0 * (z c : Rat)) ∧ 0 ≤ w 0 * (z c : Rat) ∧ _ ∧ |f32 (w 0 * (z c : Rat)) - _| ≤ _
    refine ⟨f32_nonneg hp0, hp0, by rw [h0]; linarith, ?_⟩
    refine (f32_err_512 hp0 (by linarith)).trans (by norm_num)
  | k + 1, hk => by
    obtain ⟨h1, h2, h3, h4⟩ := accF_near hw hz hnk hW hc k (by omega)
    have hm := fullSum_mono hw (show k + 1 ≤ nk - 1 by omega)
    have hs := fullSum_succ w k
    have hab : f32 ((z (c - (k + 1)) : Rat) + z (c + (k + 1))) = (z (c - (k + 1)) : Rat) + z (c + (k + 1)) := by
      have h5 := hz (c - (k + 1))
      have h6 := hz (c + (k + 1))
      have := f32_nat (n := z (c - (k + 1)) + z (c + (k + 1))) (by omega)
      push_cast at this
      exact this
    rw [accE_succ w _ (by omega)]
    have eF : accF w (fun j => (z j : Rat)) c (k + 1) =
        f32 (accF w (fun j => (z j : Rat)) c k + f32 (w (k + 1) * f32 ((z (c - (k + 1)) : Rat) + z (c + (k + 1))))) := rfl
    rw [eF, hab]
    have ha0 : (0 : Rat) ≤ (z (c - (k + 1)) : Rat) + z (c + (k + 1)) := by positivity
    have ha1 : (z (c - (k + 1)) : Rat) + z (c + (k + 1)) ≤ 510 := by
      have h5 := hz (c - (k + 1))
      have h6 := hz (c + (k + 1))
      have : z (c - (k + 1)) + z (c + (k + 1)) ≤ 510 := by omega
      exact_mod_cast this
    have hp0 := mul_nonneg (hw (k + 1)) ha0
    have hp1 := mul_le_mul_of_nonneg_left ha1 (hw (k + 1))
    generalize w (k + 1) * ((z (c - (k + 1)) : Rat) + z (c + (k + 1))) = P at *
    generalize accF w (fun j => (z j : Rat)) c k = A at *
    generalize accE w (fun j => (z j : Rat)) c k = E at *
    have hkq : (k : Rat) + 1 + 1 ≤ 4096 := by
      have : k + 1 + 1 ≤ 4096 := by omega
      exact_mod_cast this
    have h4' := abs_le.mp h4
    have hE0 : E ≤ 256 := by linarith
    have hF0 := hw 0
    have hP : P ≤ 256 := by
      have : 0 ≤ fullSum w k := by
        have := fullSum_mono hw (Nat.zero_le k)
        have h0 : fullSum w 0 = w 0 := by
          show w 0 + 2 * 0 = w 0
          ring
        linarith
      linarith
    have hEP : E + P ≤ 256 := by linarith
    have r1 := abs_le.mp (f32_err_512 hp0 (by linarith))
    have hA : A + f32 P < 512 := by linarith [r1.2, h4'.2]
    have hA0 : 0 ≤ A + f32 P := by linarith [f32_nonneg hp0]
    have r2 := abs_le.mp (f32_err_512 hA0 hA)
    refine ⟨f32_nonneg hA0, by linarith, by linarith, ?_⟩
    push_cast
    rw [abs_le]
    constructor <;> linarith [r1.1, r1.2, r2.1, r2.2, h4'.1, h4'.2]

theorem accE_window {n nk : Nat} (hnk : 1 < nk) (w s : Nat → Rat) (x : Nat) :
    accE w (bordered n (nk - 1) s) (x + nk - 1) (nk - 1) = windowSum n (nk - 1) w s x := by
  unfold accE windowSum
  rw [winSum_eq_sum]
  apply Finset.sum_congr rfl
  intro t ht
  have e1 : x + nk - 1 - (nk - 1) = x := by omega
  have e2 : absDiff (x + t) (x + nk - 1) = ((t : Int) - (nk - 1 : Nat)).natAbs := by
    unfold absDiff
    omega
  rw [e1, e2]
  unfold bordered
  push_cast
  rfl

theorem symF_near {n nk : Nat} {w : Nat → Rat} {s : Nat → Byte} (hnk : 1 < nk) (hnk2 : nk ≤ 4096) (hw : ∀ i, 0 ≤ w i)
    (hW : 255 * fullSum w (nk - 1) ≤ 511 / 2) (x : Nat) :
    0 ≤ symF n nk w (fun i => byteVal (s i)) x ∧ symF n nk w (fun i => byteVal (s i)) x < 256 ∧
      |symF n nk w (fun i => byteVal (s i)) x - windowSum n (nk - 1) w (fun i => byteVal (s i)) x| ≤ nk / 32768 := by
  obtain ⟨h1, h2, h3, h4⟩ := accF_near (w := w) (z := fun k => (s (nearest n ((k : Int) - (nk - 1 : Nat)))).toNat) (c := x + nk - 1)
    hw (by intro i; have := (s (nearest n ((i : Int) - (nk - 1 : Nat)))).toNat_lt; omega) hnk2 hW (by omega) (nk - 1) (by omega)
  have e := accE_window (n := n) hnk w (fun i => byteVal (s i)) x
  have hcast : ((nk - 1 : Nat) : Rat) = nk - 1 := by
    rw [Nat.cast_sub (by omega), Nat.cast_one]
  have h4' : |symF n nk w (fun i => byteVal (s i)) x - windowSum n (nk - 1) w (fun i => byteVal (s i)) x| ≤
      (2 * ((nk - 1 : Nat) : Rat) + 1) / 65536 := by
    rw [← e]
    exact h4
  have h1' : 0 ≤ symF n nk w (fun i => byteVal (s i)) x := h1
  have h3' : windowSum n (nk - 1) w (fun i => byteVal (s i)) x ≤ 255 * fullSum w (nk - 1) := by
    rw [← e]
    exact h3
  rw [hcast] at h4'
  have hq : (nk : Rat) ≤ 4096 := by exact_mod_cast hnk2
  have := (abs_le.mp h4').2
  refine ⟨h1', by linarith, h4'.trans (by linarith)⟩

/-! ## Images -/

section
variable {α : Type} [Inhabited α] {conv : α → Rat} {store : Rat → Res α} {junk : Nat → α} {junkB : Nat → Rat}
  {dest : Option (GImage α)} {src : GImage α} {w h : Nat} {f : Nat → Nat → α}

/-- Smoothing: `M` is stored by the first pass, `S` by the second. -/
theorem smoothF_spec (hd : ∀ d, dest = some d → d.Wf) (hw : src.Wf) (hsz : w * h ≤ 2147483647)
    (hs : src.Shows w h f) (hw2 : 2 ≤ w) (hh2 : 2 ≤ h) {tx ty : Int} (htx : 0 ≤ tx) (hty : 0 ≤ ty) {gx gy : Nat → Rat}
    {buffer : Option (List Rat)}
    (hb : ∀ b, buffer = some b → w + 2 * ((kernelSize tx).toNat / 2) ≤ b.length ∧ h + 2 * ((kernelSize ty).toNat / 2) ≤ b.length) :
    ∀ M S : Nat → Nat → α,
      (∀ x y, x < w → y < h → store (symF w ((kernelSize tx).toNat / 2 + 1) (kernW gx ((kernelSize tx).toNat / 2 + 1))
        (fun i => conv (f i y)) x) = .ok (M x y)) →
      (∀ x y, x < w → y < h → store (symF h ((kernelSize ty).toNat / 2 + 1) (kernW gy ((kernelSize ty).toNat / 2 + 1))
        (fun i => conv (M x i)) y) = .ok (S x y)) →
      ∃ b' d, smoothF conv store junk junkB dest src tx ty gx gy buffer = .ok (b', d) ∧ d.Wf ∧ d.Shows w h S := by
  have e1 := hs.width_eq
  have e2 := hs.height_eq
  obtain ⟨sx1, sx2, _, _⟩ := c54_kernel_size tx htx
  obtain ⟨sy1, sy2, _, _⟩ := c54_kernel_size ty hty
  obtain ⟨nkx, hnkx⟩ : ∃ n, (kernelSize tx).toNat = n := ⟨_, rfl⟩
  obtain ⟨nky, hnky⟩ : ∃ n, (kernelSize ty).toNat = n := ⟨_, rfl⟩
  have hx3 : 3 ≤ nkx := by omega
  have hy3 : 3 ≤ nky := by omega
  rw [hnkx, hnky] at hb ⊢
  obtain ⟨k1, ek1, lk1, hk1⟩ := kernelSymF_ok gx (nkx / 2 + 1) ((List.range (max nkx nky / 2 + 1)).map junkB)
    (by omega) (by simp only [List.length_map, List.length_range]; omega)
  rw [List.length_map, List.length_range] at lk1
  obtain ⟨k2, ek2, lk2, hk2⟩ := kernelSymF_ok gy (nky / 2 + 1) k1 (by omega) (by omega)
  intro M S hM hS
  obtain ⟨d, g, e, dw, dh, dst, hP, hin⟩ := filterDest_spec (junk := junk) hd hw hsz hs w (Nat.le_refl _)
  obtain ⟨B, hB⟩ : ∃ B, buffer.getD (filterBuffer (max src.width src.height) (max nkx nky / 2) junkB) = B := ⟨_, rfl⟩
  have hbl : w + 2 * (nkx / 2) ≤ B.length ∧ h + 2 * (nky / 2) ≤ B.length := by
    rw [← hB]
    cases hbuf : buffer with
    | none =>
      have : (filterBuffer (max src.width src.height) (max nkx nky / 2) junkB).length = max w h + 2 * (max nkx nky / 2) := by
        simp [filterBuffer, e1, e2]
      rw [Option.getD_none, this]
      omega
    | some b => exact hb b hbuf
  obtain ⟨b1, d1, er1, hl1, hP1⟩ := filterRows_spec (conv := conv) (store := store)
    (symF_lineOp (n := w) (nk := nkx / 2 + 1) (kernel := k1) (w := kernW gx (nkx / 2 + 1)) (by omega) (by omega) (by omega) hk1)
    (by omega) (src := filterSrc dest src) (sst := src.stride) dst (f := f) (S := M) (g := g) (fun l hl => filterSrc_spec hs l hl)
    (by intro hn; obtain ⟨a, b⟩ := hin (filterSrc_none hn); exact ⟨by rw [a], b⟩) hM (b := B) hbl.1 hP
  obtain ⟨b2, d2, er2, hl2, hP2⟩ := filterCols_spec (conv := conv) (store := store)
    (symF_lineOp (n := h) (nk := nky / 2 + 1) (kernel := k2) (w := kernW gy (nky / 2 + 1)) (by omega) (by omega) (by omega) hk2)
    (by omega) (src := none) (sst := d.stride) dst (f := M) (S := S) (g := M) (by intro l hl; cases hl)
    (by intro _; exact ⟨rfl, rfl⟩) hS (b := b1) (by rw [hl1]; exact hbl.2) hP1
  obtain ⟨q1, q2⟩ := pix_image dw dh dst rfl hP2
  refine ⟨b2, { d with data := d2 }, ?_, q1, q2⟩
  unfold smoothF
  rw [e1, e]
  simp only [Res.ok_bind, hnkx, hnky]
  rw [e1] at hB
  rw [ek1]
  simp only [Res.ok_bind, Nat.add_sub_cancel] at er1 er2 ⊢
  rw [hB, e2, er1]
  simp only [Res.ok_bind]
  rw [ek2]
  simp only [Res.ok_bind]
  rw [dw, dh, er2]
  rfl

end

section
variable {junk : Nat → Byte} {junkB : Nat → Rat} {dest : Option (GImage Byte)} {src : GImage Byte} {w h : Nat} {f : Nat → Nat → Byte}

/-- `w` is the kernel for the values `g`, up to rounding. -/
structure NearKernel (nk : Nat) (g w : Nat → Rat) : Prop where
  nonneg : ∀ j, 0 ≤ w j
  near : ∀ j, |w j - g j / (g 0 + 2 * winSum g 1 (nk - 1))| ≤ nk / 2097152
  sum : |w 0 + 2 * winSum w 1 (nk - 1) - 1| ≤ 3 * nk / 8388608

theorem byte_pass {g : Nat → Rat} (hg : Bell g) {n nk : Nat} (hnk : 1 < nk) (hnk2 : nk ≤ 4096) (s : Nat → Byte) (x : Nat) :
    ∃ c, storeByte (symF n nk (kernW g nk) (fun i => byteVal (s i)) x) = .ok c ∧
      byteVal c ≤ windowSum n (nk - 1) (kernW g nk) (fun i => byteVal (s i)) x + nk / 32768 ∧
      windowSum n (nk - 1) (kernW g nk) (fun i => byteVal (s i)) x < byteVal c + 1 + nk / 32768 := by
  obtain ⟨n1, n2, n3⟩ := kernW_near hg hnk hnk2
  have hq : (nk : Rat) ≤ 4096 := by exact_mod_cast hnk2
  obtain ⟨h1, h2, h3⟩ := symF_near (n := n) (s := s) hnk hnk2 n1 (by linarith [(abs_le.mp n3).2]) x
  obtain ⟨c, e, c1, c2⟩ := storeByte_lt h1 h2
  have := abs_le.mp h3
  have e1 : byteVal c = (c.toNat : Rat) := rfl
  exact ⟨c, e, by rw [e1]; linarith [this.2], by rw [e1]; linarith [this.1]⟩

/-- C152, bytes. With up to 4096 values in each kernel smoothing is defined for all images; each of the two passes gives the weighted
mean for a kernel that is the Gaussian one up to rounding, without its fraction, up to `nk / 2^15`. -/
theorem c152_smooth_uc_partial (hd : ∀ d, dest = some d → d.Wf) (hw : src.Wf) (hsz : w * h ≤ 2147483647)
    (hs : src.Shows w h f) (hw2 : 2 ≤ w) (hh2 : 2 ≤ h) {tx ty : Int} (htx : 0 ≤ tx) (hty : 0 ≤ ty) {gx gy : Nat → Rat}
    (hgx : Bell gx) (hgy : Bell gy) {nkx nky : Nat} (hnkx : nkx = (kernelSize tx).toNat / 2 + 1)
    (hnky : nky = (kernelSize ty).toNat / 2 + 1) (hx : nkx ≤ 4096) (hy : nky ≤ 4096) {buffer : Option (List Rat)}
    (hb : ∀ b, buffer = some b → w + 2 * ((kernelSize tx).toNat / 2) ≤ b.length ∧ h + 2 * ((kernelSize ty).toNat / 2) ≤ b.length) :
    ∃ b' d, ∃ M S : Nat → Nat → Byte, ∃ wx wy : Nat → Rat,
      smoothF byteVal storeByte junk junkB dest src tx ty gx gy buffer = .ok (b', d) ∧ d.Wf ∧ d.Shows w h S ∧
      NearKernel nkx gx wx ∧ NearKernel nky gy wy ∧
      ∀ x y, x < w → y < h →
        (byteVal (M x y) ≤ windowSum w (nkx - 1) wx (fun i => byteVal (f i y)) x + nkx / 32768 ∧
          windowSum w (nkx - 1) wx (fun i => byteVal (f i y)) x < byteVal (M x y) + 1 + nkx / 32768) ∧
        (byteVal (S x y) ≤ windowSum h (nky - 1) wy (fun j => byteVal (M x j)) y + nky / 32768 ∧
          windowSum h (nky - 1) wy (fun j => byteVal (M x j)) y < byteVal (S x y) + 1 + nky / 32768) := by
  obtain ⟨sx1, sx2, _, _⟩ := c54_kernel_size tx htx
  obtain ⟨sy1, sy2, _, _⟩ := c54_kernel_size ty hty
  have hM := fun x y => byte_pass hgx (n := w) (nk := nkx) (by omega) hx (fun i => f i y) x
  choose M hM1 hM2 using hM
  have hS := fun x y => byte_pass hgy (n := h) (nk := nky) (by omega) hy (fun j => M x j) y
  choose S hS1 hS2 using hS
  obtain ⟨b', d, e, q1, q2⟩ := smoothF_spec (conv := byteVal) (store := storeByte) (junk := junk) (junkB := junkB) (gx := gx) (gy := gy)
    hd hw hsz hs hw2 hh2 htx hty hb M S (by intro x y _ _; rw [← hnkx]; exact hM1 x y) (by intro x y _ _; rw [← hnky]; exact hS1 x y)
  obtain ⟨a1, a2, a3⟩ := kernW_near hgx (nk := nkx) (by omega) hx
  obtain ⟨b1, b2, b3⟩ := kernW_near hgy (nk := nky) (by omega) hy
  exact ⟨b', d, M, S, kernW gx nkx, kernW gy nky, e, q1, q2, ⟨a1, a2, a3⟩, ⟨b1, b2, b3⟩, fun x y _ _ => ⟨hM2 x y, hS2 x y⟩⟩

/-- `exp(-i*i/2)` as `double` numbers, `src/nx_filter.c:56-59`. -/
def gaussOne : Nat → Rat
  | 0 => 1
  | 1 => 2731571253070597 / 4503599627370496
  | 2 => 1218991862308979 / 9007199254740992
  | 3 => 6403900501771287 / 576460752303423488
  | _ => 0

theorem gaussOne_bell : Bell gaussOne := by
  refine ⟨rfl, ?_, ?_⟩
  · intro i
    match i with
    | 0 | 1 | 2 | 3 => decide +kernel
    | _ + 4 => exact le_refl _
  · intro i
    match i with
    | 0 | 1 | 2 | 3 => decide +kernel
    | _ + 4 => exact (by norm_num : (0 : Rat) ≤ 1)

theorem accF_const (w : Nat → Rat) (v : Rat) (c : Nat) : ∀ k, accF w (fun _ => v) c k = accF w (fun _ => v) 0 k
  | 0 => rfl
  | k + 1 => by
    show f32 (accF w (fun _ => v) c k + _) = f32 (accF w (fun _ => v) 0 k + _)
    rw [accF_const w v c k]

/-- C152 fails for the sum of the kernel: with a standard deviation of one and three of them on each side it is not one. -/
theorem c152_sum_false {kernel : List Rat} (hlen : 4 ≤ kernel.length) :
    ∃ out, kernelSymF gaussOne 4 kernel = .ok out ∧ out[0]? = some (13389905 / 33554432) ∧ out[1]? = some (2030347 / 8388608) ∧
      out[2]? = some (3624253 / 67108864) ∧ out[3]? = some (4759949 / 1073741824) ∧
      (13389905 / 33554432 : Rat) + 2 * (2030347 / 8388608 + 3624253 / 67108864 + 4759949 / 1073741824) < 1 := by
  obtain ⟨out, e, l, h⟩ := kernelSymF_ok gaussOne 4 kernel (by omega) hlen
  refine ⟨out, e, ?_, ?_, ?_, ?_, by norm_num⟩
  all_goals
    rw [List.getElem?_eq_getElem (by omega), h _ (by omega) (by omega)]
    decide +kernel

/-- C152 fails for white images: smoothing with a standard deviation of one, and three of them on each side, makes all of them
gray. -/
theorem c152_white_false (hd : ∀ d, dest = some d → d.Wf) (hw : src.Wf) (hsz : w * h ≤ 2147483647)
    (hs : src.Shows w h (fun _ _ => 255)) (hw2 : 2 ≤ w) (hh2 : 2 ≤ h) :
    ∃ b' d, smoothF byteVal storeByte junk junkB dest src 7 7 gaussOne gaussOne none = .ok (b', d) ∧
      d.Shows w h (fun _ _ => 253) := by
  obtain ⟨b', d, e, _, q2⟩ := smoothF_spec (conv := byteVal) (store := storeByte) (junk := junk) (junkB := junkB) (gx := gaussOne)
    (gy := gaussOne) (tx := 7) (ty := 7) (buffer := none) hd hw hsz hs hw2 hh2 (by norm_num) (by norm_num) (by intro b h; cases h)
    (fun _ _ => 254) (fun _ _ => 253) (by
      intro x y _ _
      have e1 : (kernelSize 7).toNat / 2 + 1 = 4 := by decide +kernel
      rw [e1]
      show storeByte (accF (kernW gaussOne 4) (fun _ => byteVal 255) (x + 4 - 1) 3) = _
      rw [accF_const]
      decide +kernel) (by
      intro x y _ _
      have e1 : (kernelSize 7).toNat / 2 + 1 = 4 := by decide +kernel
      rw [e1]
      show storeByte (accF (kernW gaussOne 4) (fun _ => byteVal 254) (y + 4 - 1) 3) = _
      rw [accF_const]
      decide +kernel)
  exact ⟨b', d, e, q2⟩

end

/-! ## Examples -/

/-- The hypotheses of `c152_smooth_uc_partial` can be met. -/
example : (smoothF byteVal storeByte (fun _ => 0) (fun _ => 7) none (⟨2, 2, 2, [0, 160, 0, 160]⟩ : GImage Byte) 7 7 gaussOne gaussOne
    none).bind (fun r => .ok r.2.data) = .ok [48, 110, 48, 110] := by decide +kernel

example : Bell gaussOne ∧ (kernelSize 7).toNat / 2 + 1 = 4 := ⟨gaussOne_bell, by decide +kernel⟩

end Nx
