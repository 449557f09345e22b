import Verif.Spec.Pyramid
import Verif.Lemmas.PyramidUpdate

/-!
# C81: image pyramids
-/

namespace Nx

/-! ## The functions for 8-bit images meet the contract -/

theorem packed_length {img : GImage Byte} {w h : Nat} {f : Nat → Nat → Byte} (hw : img.Wf) (hs : img.Shows w h f) (hst : img.stride = w) :
    img.data.length = w * h := by
  rw [hw.length_eq, hst, hs.height_eq]

theorem aaDownX_stride {junk : Nat → Byte} {dest src d : GImage Byte} (hd : dest.Wf) (hsz : src.width / 2 * src.height ≤ 2147483647)
    (e : aaDownX aaUc junk dest src = .ok d) : d.stride = src.width / 2 := by
  obtain ⟨r, er, _, _, hs, _⟩ := gResize_ok (junk := junk) (st := 0) hd hsz (Nat.zero_le _)
  unfold aaDownX at e
  rw [er, Res.ok_bind, Res.bind_eq_ok] at e
  obtain ⟨x, _, e⟩ := e
  cases e
  exact hs

theorem aaDownY_stride {junk : Nat → Byte} {dest src d : GImage Byte} (hd : dest.Wf) (hsz : src.width * (src.height / 2) ≤ 2147483647)
    (e : aaDownY aaUc junk dest src = .ok d) : d.stride = src.width := by
  obtain ⟨r, er, _, _, hs, _⟩ := gResize_ok (junk := junk) (st := 0) hd hsz (Nat.zero_le _)
  unfold aaDownY at e
  rw [er, Res.ok_bind, Res.bind_eq_ok] at e
  obtain ⟨x, _, e⟩ := e
  cases e
  exact hs

theorem gDownsample_stride {junk : Nat → Byte} {dest src d : GImage Byte} (hd : dest.Wf)
    (hsz : src.width / 2 * (src.height / 2) ≤ 2147483647) (e : gDownsample junk dest src = .ok d) : d.stride = src.width / 2 := by
  obtain ⟨r, er, _, _, hs, _⟩ := gResize_ok (junk := junk) (st := src.width / 2) hd hsz (Nat.le_refl _)
  unfold gDownsample at e
  rw [er, Res.ok_bind, Res.bind_eq_ok] at e
  obtain ⟨x, _, e⟩ := e
  cases e
  exact hs

theorem smooth_stride {junk : Nat → Byte} {junkB : Nat → Rat} {dest : Option (GImage Byte)} {src : GImage Byte} {tx ty : Int}
    {gx gy : Nat → Rat} {r : List Rat × GImage Byte} (hd : ∀ d, dest = some d → d.Wf) (hsz : src.width * src.height ≤ 2147483647)
    (hst : src.stride = src.width) (e : smooth byteVal storeByte junk junkB dest src tx ty gx gy none = .ok r) :
    r.2.stride = src.width := by
  have : ∃ d, filterDest junk dest src src.width = .ok d ∧ d.stride = src.width := by
    cases dest with
    | none => exact ⟨src, rfl, hst⟩
    | some d =>
      obtain ⟨r, er, _, _, hs, _⟩ := gResize_ok (junk := junk) (st := src.width) (hd d rfl) hsz (Nat.le_refl _)
      exact ⟨r, er, hs⟩
  obtain ⟨d, ed, hs⟩ := this
  unfold smooth at e
  rw [ed, Res.ok_bind] at e
  simp only [Res.bind_eq_ok] at e
  obtain ⟨_, _, _, _, _, _, _, _, e⟩ := e
  cases e
  exact hs

theorem gScale_stride {junk : Nat → Byte} {dest src d : GImage Byte} {s : Rat} (hd : dest.Wf) {W H : Nat}
    (h1 : d.width = W) (h2 : d.height = H) (hsz : W * H ≤ 2147483647)
    (e : gScale byteVal storeClamped junk dest src s = .ok d) : d.stride = W := by
  unfold gScale at e
  rw [Res.bind_eq_ok] at e
  obtain ⟨dw, _, e⟩ := e
  rw [Res.bind_eq_ok] at e
  obtain ⟨dh, _, e⟩ := e
  split at e
  · cases e
  · rw [Res.bind_eq_ok] at e
    obtain ⟨r, er, e⟩ := e
    rw [Res.bind_eq_ok] at e
    obtain ⟨x, _, e⟩ := e
    cases e
    simp only [] at h1 h2 ⊢
    have hw : r.width = dw.toNat ∧ r.height = dh.toNat := by
      unfold gResize at er
      split at er
      · rename_i hc
        cases er
        exact ⟨hc.1, hc.2.1⟩
      · simp only [if_neg (Nat.lt_irrefl _)] at er
        by_cases hc : dw.toNat * dh.toNat ≤ 2147483647
        · rw [if_pos hc] at er
          rw [← Res.ok.inj er]
          exact ⟨rfl, rfl⟩
        · rw [if_neg hc] at er
          exact absurd er (by intro h; cases h)
    obtain ⟨r', er', q1, _, q2, _⟩ := gResize_ok (junk := junk) (w := dw.toNat) (h := dh.toNat) (st := dw.toNat) hd
      (by rw [← hw.1, ← hw.2, h1, h2]; exact hsz) (Nat.le_refl _)
    rw [er'] at er
    cases er
    rw [q2, ← hw.1, h1]

theorem gRestride_ok (junk : Nat → Byte) (img : GImage Byte) {w h : Nat} (hsz : w * h ≤ 2147483647) :
    ∃ d, gRestride junk img w h = .ok d ∧ d.Wf ∧ d.width = w ∧ d.height = h ∧ d.stride = w ∧
      ∀ k v, k < w * h → img.data[k]? = some v → d.data[k]? = some v := by
  unfold gRestride
  rw [if_neg (by omega), Int.toNat_natCast, Int.toNat_natCast, if_pos hsz]
  refine ⟨_, rfl, ⟨Nat.le_refl _, ?_⟩, rfl, rfl, rfl, ?_⟩
  · simp
  · intro k v hk e
    rw [List.getElem?_map, List.getElem?_range hk, Option.map_some, e, Option.getD_some]

theorem kernel_radius {t : Int} (ht : 0 ≤ t) : (kernelSize t).toNat / 2 = max 1 (t.toNat / 2) := by
  obtain ⟨h1, h2, h3, h4⟩ := c54_kernel_size t ht
  by_cases h : 3 ≤ t
  · have := h4 h
    omega
  · have : kernelSize t = 3 := by
      unfold kernelSize
      simp only []
      split <;> split <;> omega
    omega

theorem pyrKernel_nonneg {σ : ℝ} (h : 0 < σ) : 0 ≤ pyrKernel σ := by
  unfold pyrKernel
  apply Int.floor_nonneg.mpr
  linarith

theorem pyrKernel_le {σ : ℝ} (h : σ ≤ 134217728) : pyrKernel σ ≤ 2147483647 := by
  have h1 : (2 : ℝ) * 4 * σ + 1 ≤ ((2147483647 : ℤ) : ℝ) := by push_cast; linarith
  have := Int.floor_le_floor h1
  rw [Int.floor_intCast] at this
  exact this

theorem rounded_of_store {v : Rat} (h0 : 0 ≤ v) (h1 : v ≤ 255) {c : Byte} (e : storeByte v = .ok c) : RoundedDown v c := by
  obtain ⟨c', e', l1, l2⟩ := storeByte_spec h0 h1
  rw [e] at e'
  cases e'
  exact ⟨l1, l2⟩

/-- The functions for 8-bit images meet the contract: images of the pyramid have rows without gaps. -/
noncomputable def byteSpec (junk : Nat → Byte) (junkB : Nat → Rat) (g : ℝ → Nat → Rat)
    (hg : ∀ σ, 0 < σ → 0 < g σ 0 ∧ ∀ j, 0 ≤ g σ j) : PyrSpec (byteOps junk junkB g) (Nat → Nat → Byte) where
  Ok := GImage.Wf
  Is i w h f := i.Wf ∧ i.Shows w h f ∧ i.stride = w
  Src i w h f := i.Wf ∧ FirstBytes i w h f
  blur := Blurred g
  half := Halved
  thin := Thinned
  shrink s _ _ := Shrunk s
  is_ok h := h.1
  alloc_ok := ⟨Nat.le_refl _, rfl⟩
  size_is h := by
    show (_, _) = _
    rw [h.2.1.width_eq, h.2.1.height_eq]
  create_ok := by
    intro i w h hi hsz
    obtain ⟨d, e, hd, _⟩ := gRestride_ok junk i hsz
    exact ⟨d, e, hd⟩
  load := by
    intro d s w h f hd hs hsz
    obtain ⟨r, e, hr, r1, r2, r3, r4⟩ := gRestride_ok junk s hsz
    have hsize : (byteOps junk junkB g).size s = (w, h) := by
      show (s.width, s.height) = _
      rw [hs.2.width_eq, hs.2.height_eq]
    refine ⟨hsize, s, r, rfl, hs.1, hsize, e, hr, ⟨r1, r2, ?_⟩, r3⟩
    intro x y hx hy
    unfold GImage.pixel
    rw [r3]
    exact r4 _ _ (pixIdx_lt hx hy) (hs.2.data_eq x y hx hy)
  copy_is := by
    intro d s w h f hd hs
    exact ⟨s, rfl, hs⟩
  smooth_is := by
    intro dest s w h f σ hd hs hw hh hsz h0 h1
    obtain ⟨hwf, hsh, hst⟩ := hs
    have ht := pyrKernel_nonneg h0
    obtain ⟨g0, g1⟩ := hg σ h0
    obtain ⟨wx, wy, q1, q2, hall⟩ := smooth_spec (conv := byteVal) (store := storeByte) (junk := junk) (junkB := junkB) (dest := dest) hd hwf
      hsz hsh hw hh ht ht g0 g1 g0 g1 (buffer := none) (by intro b hb; cases hb)
    rw [kernel_radius ht] at q1 q2 hall
    obtain ⟨M, S, hM, hS, _⟩ := two_passes (f := f) (w := w) (h := h) (by omega) (by omega) q1.nonneg q2.nonneg q1.normal q2.normal
    obtain ⟨b', d, e, hd', hsh'⟩ := hall M S hM hS
    have hradius : max 1 ((pyrKernel σ).toNat / 2) = blurRadius σ := by
      unfold blurRadius pyrKernel
      rw [show (2 : ℝ) * 4 = 8 by norm_num]
    refine ⟨d, S, ?_, ⟨hd', hsh', ?_⟩, ?_⟩
    · show (if pyrKernel σ > 2147483647 then Res.ub else if σ ≤ 0 then Res.fatal else _) = _
      rw [if_neg (by have := pyrKernel_le h1; omega), if_neg (not_le.mpr h0), e]
      rfl
    · have := smooth_stride (r := (b', d)) hd (by rw [hsh.width_eq, hsh.height_eq]; exact hsz) (by rw [hst, hsh.width_eq]) e
      rw [hsh.width_eq] at this
      exact this
    · rw [hradius] at q1 q2 hM hS
      refine ⟨wx, wy, M, q1, q2, ?_, ?_⟩
      · intro x y hx hy
        exact rounded_of_store (windowSum_ge (by omega) q1.nonneg q1.normal (fun i _ => byteVal_nonneg _) x)
          (windowSum_le (by omega) q1.nonneg q1.normal (fun i _ => byteVal_le _) x) (hM x y hx hy)
      · intro x y hx hy
        exact rounded_of_store (windowSum_ge (by omega) q2.nonneg q2.normal (fun i _ => byteVal_nonneg _) y)
          (windowSum_le (by omega) q2.nonneg q2.normal (fun i _ => byteVal_le _) y) (hS x y hx hy)
  half_is := by
    intro work d s w h f hwk hd hs h4 h5 hsz
    obtain ⟨hwf, hsh, hst⟩ := hs
    obtain ⟨k, e1, k1, k2⟩ := aaDownX_spec (ops := aaUc) (junk := junk) hwk hwf (by rw [packed_length hwf hsh hst]; exact hsz) hsh h4
    have a1 : w / 2 * h ≤ 2147483647 := Nat.le_trans (Nat.mul_le_mul_right _ (Nat.div_le_self _ _)) hsz
    have ks := aaDownX_stride hwk (by rw [hsh.width_eq, hsh.height_eq]; exact a1) e1
    rw [hsh.width_eq] at ks
    obtain ⟨r, e2, r1, r2⟩ := aaDownY_spec (ops := aaUc) (junk := junk) hd k1 (by rw [packed_length k1 k2 ks]; exact a1) k2 h5
    have a2 : w / 2 * (h / 2) ≤ 2147483647 := area_le hsz
    have rs := aaDownY_stride hd (by rw [k2.width_eq, k2.height_eq]; exact a2) e2
    rw [k2.width_eq] at rs
    refine ⟨k, r, _, e1, k1, e2, ⟨r1, r2, rs⟩, fun x y => aaVal aaUc w (fun i => f i y) x, ?_, ?_⟩
    · intro x y hx hy
      exact aaVal_uc h4 (fun i => f i y) hx
    · intro x y hx hy
      exact aaVal_uc h5 _ hy
  thin_is := by
    intro d s w h f hd hs hsz
    obtain ⟨hwf, hsh, hst⟩ := hs
    obtain ⟨r, e, r1, r2⟩ := gDownsample_spec (junk := junk) hd (by rw [packed_length hwf hsh hst]; exact hsz) hwf hsh
    have rs := gDownsample_stride hd (by rw [hsh.width_eq, hsh.height_eq]; exact area_le hsz) e
    rw [hsh.width_eq] at rs
    exact ⟨r, _, e, ⟨r1, r2, rs⟩, fun x y _ _ => rfl⟩
  shrink_is := by
    intro d s w h f c hd hs hw2 hh2 hsz c0 c1
    obtain ⟨hwf, hsh, hst⟩ := hs
    have hw1 : ∀ n : Nat, (⌊(n : Rat) * c⌋).toNat ≤ n := by
      intro n
      have h1 : (n : Rat) * c ≤ n := mul_le_of_le_one_right (Nat.cast_nonneg n) (le_of_lt c1)
      have h2 := Int.floor_le_floor h1
      rw [Int.floor_natCast] at h2
      omega
    have hwm : w ≤ 2147483647 := Nat.le_trans (Nat.le_mul_of_pos_right w (by omega)) hsz
    have hhm : h ≤ 2147483647 := Nat.le_trans (Nat.le_mul_of_pos_left h (by omega)) hsz
    obtain ⟨r, S, e, r1, r2, r3⟩ := c79_scale_uc (junk := junk) hd hsh hwm hhm hsz c0 c1
    have rs := gScale_stride hd r2.width_eq r2.height_eq (Nat.le_trans (Nat.mul_le_mul (hw1 w) (hw1 h)) hsz) e
    exact ⟨r, S, e, ⟨r1, r2, rs⟩, r3⟩


/-! ## The settings -/

theorem atLeastInitial_eq (σ : ℝ) : atLeastInitial σ = max σ (1 / 2) := by
  unfold atLeastInitial initialSigma
  by_cases h : σ < 1 / 2
  · rw [if_pos h, max_eq_right (le_of_lt h)]
  · rw [if_neg h, max_eq_left (not_lt.mp h)]

theorem half_le_initial (σ : ℝ) : 1 / 2 ≤ atLeastInitial σ := by
  rw [atLeastInitial_eq]
  exact le_max_right _ _

theorem setFast_eq {I : Type} {b0 b : PyrBuilder I} {n : Nat} {σ : ℝ} (h : setFast b0 n σ = .ok b) :
    0 < n ∧ b = { b0 with kind := .fast, levels := n, octaves := n, steps := 1, factor := 2, sigma0 := atLeastInitial σ } := by
  unfold setFast at h
  split at h
  · cases h
  · exact ⟨by omega, (Res.ok.inj h).symm⟩

theorem setFine_eq {I : Type} {b0 b : PyrBuilder I} {oct st : Nat} {σ : ℝ} (h : setFine b0 oct st σ = .ok b) :
    0 < oct ∧ 0 < st ∧
      b = { b0 with kind := .fine, levels := oct * st, octaves := oct, steps := st, factor := 2, sigma0 := atLeastInitial σ } := by
  unfold setFine at h
  split at h
  · cases h
  · split at h
    · cases h
    · exact ⟨by omega, by omega, (Res.ok.inj h).symm⟩

theorem setScaled_eq {I : Type} {b0 b : PyrBuilder I} {n : Nat} {c : Rat} {σ : ℝ} (h : setScaled b0 n c σ = .ok b) :
    0 < n ∧ b = { b0 with kind := .scaled, levels := n, octaves := 0, steps := 1, factor := c, sigma0 := atLeastInitial σ } := by
  unfold setScaled at h
  split at h
  · cases h
  · exact ⟨by omega, (Res.ok.inj h).symm⟩

theorem sigma_one {I : Type} {b : PyrBuilder I} (hst : b.steps = 1) (i : Nat) : levelSigma b i = b.sigma0 * 2 ^ i := by
  unfold levelSigma
  rw [hst, Nat.cast_one, div_one, Real.rpow_natCast]

theorem scale_one {I : Type} {b : PyrBuilder I} (hst : b.steps = 1) (i : Nat) : levelScale b i = b.factor ^ i := by
  unfold levelScale
  rw [hst, Nat.div_one]

section
variable {I P : Type} {ops : PyrOps I} (C : PyrSpec ops P) {b0 b : PyrBuilder I} {pyr : List (PyrLevel I)} {img : I} {w h : Nat} {p : P}

theorem build_fast {n : Nat} {σ : ℝ} (hb : setFast b0 n σ = .ok b) (hwork : C.Ok b0.work) (hpyr : AllOk C pyr) (hs : C.Src img w h p)
    (hσ : σ ≤ 134217728) (hw : 2 ≤ w) (hh : 2 ≤ h) (hsz : w * h ≤ 2147483647)
    (hbig : ∀ i, i + 1 < n → 4 ≤ w / 2 ^ i ∧ 4 ≤ h / 2 ^ i) :
    ∃ work pyr' Pic, pyrBuild ops b pyr img = .ok ({ b with work := work }, pyr') ∧ C.Ok work ∧ FastPyr C b n w h p Pic (n - 1) ∧
      Levels b n (fun i img => C.Is img (w / 2 ^ i) (h / 2 ^ i) (Pic i)) pyr' := by
  obtain ⟨hn, rfl⟩ := setFast_eq hb
  obtain ⟨p1, hL, e⟩ := pyrBuild_ok C (b := { b0 with kind := .fast, levels := n, octaves := n, steps := 1, factor := 2, sigma0 := atLeastInitial σ })
    hpyr (by intro hk; cases hk) Nat.one_pos (by norm_num) hn (by omega) (by omega) hsz hs
  obtain ⟨work, pyr', Pic, e1, h1, h2, h3⟩ := updateFast_ok C (b := { b0 with kind := .fast, levels := n, octaves := n, steps := 1, factor := 2, sigma0 := atLeastInitial σ })
    hn hwork hL (half_le_initial σ)
    (by show atLeastInitial σ ≤ _; rw [atLeastInitial_eq]; exact max_le hσ (by norm_num)) hw hh hsz hbig
  refine ⟨work, pyr', Pic, ?_, h1, h2, h3⟩
  rw [e]
  show (updateFast ops _ p1 >>= _) = _
  rw [e1]
  rfl

theorem sigma_bound {oct st : Nat} (hst : 0 < st) (h0 : 0 < b.sigma0) (hs : b.steps = st) (hb : b.sigma0 * 2 ^ oct ≤ 134217728)
    (i : Nat) (hi : i < oct * st) : levelSigma b i ≤ 134217728 := by
  refine le_trans ?_ hb
  unfold levelSigma
  apply mul_le_mul_of_nonneg_left _ (le_of_lt h0)
  rw [← Real.rpow_natCast]
  apply Real.rpow_le_rpow_of_exponent_le (by norm_num)
  have h1 : (0 : ℝ) < b.steps := by rw [hs]; exact_mod_cast hst
  rw [div_le_iff₀ h1, hs]
  exact_mod_cast le_of_lt hi

theorem build_fine {oct st : Nat} {σ : ℝ} (hb : setFine b0 oct st σ = .ok b) (hwork : C.Ok b0.work) (hpyr : AllOk C pyr)
    (hs : C.Src img w h p) (hσ : max σ (1 / 2) * 2 ^ oct ≤ 134217728) (hsz : w * h ≤ 2147483647)
    (hbig : ∀ o, o < oct → 2 ≤ w / 2 ^ o ∧ 2 ≤ h / 2 ^ o) :
    ∃ work pyr', ∃ Pic : Nat → P, pyrBuild ops b pyr img = .ok ({ b with work := work }, pyr') ∧ C.Ok work ∧
      First C b.sigma0 w h p (Pic 0) ∧ (∀ i, i + 1 < oct * b.steps → FineRel C b w h i (Pic i) (Pic (i + 1))) ∧
      Levels b (oct * b.steps) (fun i img => C.Is img (w / 2 ^ (i / b.steps)) (h / 2 ^ (i / b.steps)) (Pic i)) pyr' := by
  obtain ⟨ho, hst, rfl⟩ := setFine_eq hb
  have h2 := hbig 0 ho
  rw [pow_zero, Nat.div_one, Nat.div_one] at h2
  obtain ⟨p1, hL, e⟩ := pyrBuild_ok C
    (b := { b0 with kind := .fine, levels := oct * st, octaves := oct, steps := st, factor := 2, sigma0 := atLeastInitial σ })
    hpyr (by intro hk; cases hk) hst (by norm_num) (Nat.mul_pos ho hst) (by omega) (by omega) hsz hs
  obtain ⟨work, pyr', Pic, e1, h1, h3, h4, h5⟩ := updateFine_ok C (b := { b0 with kind := .fine, levels := oct * st, octaves := oct, steps := st, factor := 2, sigma0 := atLeastInitial σ })
    ho rfl hst hwork hL (half_le_initial σ)
    (sigma_bound hst (lt_of_lt_of_le (by norm_num) (half_le_initial σ)) rfl
      (by show atLeastInitial σ * _ ≤ _; rw [atLeastInitial_eq]; exact hσ)) hbig hsz
  refine ⟨work, pyr', Pic, ?_, h1, h3, h4, h5⟩
  rw [e]
  show (updateFine ops _ p1 >>= _) = _
  rw [e1]
  rfl

theorem build_scaled {n : Nat} {c : Rat} {σ : ℝ} (hb : setScaled b0 n c σ = .ok b) (hc : 1 < c) (hwork : C.Ok b0.work)
    (hpyr : AllOk C pyr) (hs : C.Src img w h p) (hσ : max σ (1 / 2) * 2 ^ n ≤ 134217728) (hw : 2 ≤ w) (hh : 2 ≤ h)
    (hsz : w * h ≤ 2147483647) :
    ∃ work pyr' Acc Pic, pyrBuild ops b pyr img = .ok ({ b with work := work }, pyr') ∧ C.Ok work ∧
      ScaledPyr C b w h p Acc Pic (n - 1) ∧
      Levels b n (fun i img => C.Is img (⌊(w : Rat) / levelScale b i⌋).toNat (⌊(h : Rat) / levelScale b i⌋).toNat (Pic i)) pyr' := by
  obtain ⟨hn, rfl⟩ := setScaled_eq hb
  obtain ⟨p1, hL, e⟩ := pyrBuild_ok C
    (b := { b0 with kind := .scaled, levels := n, octaves := 0, steps := 1, factor := c, sigma0 := atLeastInitial σ })
    hpyr (by intro hk; cases hk) Nat.one_pos (le_of_lt hc) hn (by omega) (by omega) hsz hs
  obtain ⟨work, pyr', Acc, Pic, e1, h1, h3, h4⟩ := updateScaled_ok C (b := { b0 with kind := .scaled, levels := n, octaves := 0, steps := 1, factor := c, sigma0 := atLeastInitial σ })
    hn hwork rfl hc hL (half_le_initial σ)
    (fun i hi => sigma_bound (oct := n) (st := 1) Nat.one_pos (lt_of_lt_of_le (by norm_num) (half_le_initial σ)) rfl
      (by show atLeastInitial σ * _ ≤ _; rw [atLeastInitial_eq]; exact hσ) i (by omega)) hw hh hsz
  refine ⟨work, pyr', Acc, Pic, ?_, h1, h3, h4⟩
  rw [e]
  show (updateScaled ops _ p1 >>= _) = _
  rw [e1]
  rfl

end

/-! ## 8-bit images -/

section
variable {junk : Nat → Byte} {junkB : Nat → Rat} {g : ℝ → Nat → Rat} {b0 b : PyrBuilder (GImage Byte)}
  {pyr : List (PyrLevel (GImage Byte))} {img : GImage Byte} {w h : Nat} {f : Nat → Nat → Byte}

theorem allOk_of (hg : ∀ σ, 0 < σ → 0 < g σ 0 ∧ ∀ j, 0 ≤ g σ j) (hpyr : ∀ l ∈ pyr, l.img.Wf) : AllOk (byteSpec junk junkB g hg) pyr :=
  fun _ l e => hpyr l (List.mem_of_getElem? e)

theorem firstBytes_of_stride (hs : img.Shows w h f) (hst : img.stride = w) : FirstBytes img w h f := by
  refine ⟨hs.width_eq, hs.height_eq, ?_⟩
  intro x y hx hy
  have := hs.pixel_eq x y hx hy
  unfold GImage.pixel at this
  rw [hst] at this
  exact this

/-- C81. A fast pyramid of `n` levels, whatever the images of the pyramid and the builder held before: level `i` has scale `2 ^ i`, sigma
`2 ^ i` times that of level zero, and size `⌊w / 2 ^ i⌋` by `⌊h / 2 ^ i⌋`; level zero is the given image, smoothed; every other one is the
one before, reduced by half. What remains: the image that is built from is that of the first bytes of the memory, without gaps between
rows, and the levels but the last must have four rows and columns (see `c81_padded` and `c81_fast_small`). -/
theorem c81_fast_partial (hg : ∀ σ, 0 < σ → 0 < g σ 0 ∧ ∀ j, 0 ≤ g σ j) {n : Nat} {σ : ℝ} (hb : setFast b0 n σ = .ok b)
    (hwork : b0.work.Wf) (hpyr : ∀ l ∈ pyr, l.img.Wf) (hi : img.Wf) (hf : FirstBytes img w h f) (hσ : σ ≤ 134217728)
    (hw : 2 ≤ w) (hh : 2 ≤ h) (hsz : w * h ≤ 2147483647) (hbig : ∀ i, i + 1 < n → 4 ≤ w / 2 ^ i ∧ 4 ≤ h / 2 ^ i) :
    ∃ work pyr', ∃ Pic : Nat → Nat → Nat → Byte, pyrBuild (byteOps junk junkB g) b pyr img = .ok ({ b with work := work }, pyr') ∧
      work.Wf ∧ pyr'.length = n ∧
      (∀ i, i < n → HasLevel pyr' i (2 ^ i) (max σ (1 / 2) * 2 ^ i) (w / 2 ^ i) (h / 2 ^ i) (Pic i)) ∧
      LevelZero g (max σ (1 / 2)) w h f (Pic 0) ∧
      ∀ i, i + 1 < n → Halved (w / 2 ^ i) (h / 2 ^ i) (Pic i) (Pic (i + 1)) := by
  obtain ⟨work, pyr', Pic, e, h1, h2, h3⟩ := build_fast (byteSpec junk junkB g hg) hb hwork (allOk_of hg hpyr) ⟨hi, hf⟩ hσ hw hh hsz hbig
  obtain ⟨hn, rfl⟩ := setFast_eq hb
  refine ⟨work, pyr', Pic, e, h1, h3.len, ?_, ?_, fun i hi' => h2.next i (by omega)⟩
  · intro i hi'
    obtain ⟨m, em, q1, q2, q3⟩ := h3.lev i hi'
    rw [scale_one rfl, sigma_one rfl] at em
    rw [← atLeastInitial_eq]
    exact ⟨m, em, q1, q2, q3⟩
  · rw [← atLeastInitial_eq]
    exact h2.first

/-- A flat image of 8 by 8 pixels. -/
def flat8 : GImage Byte := ⟨8, 8, 8, List.replicate 64 7⟩

theorem flat8_bytes : FirstBytes flat8 8 8 (fun _ _ => 7) := by
  refine ⟨rfl, rfl, ?_⟩
  intro x y hx hy
  show (List.replicate 64 (7 : Byte))[y * 8 + x]? = _
  rw [List.getElem?_replicate, if_pos (by omega)]

theorem flat8_wf : flat8.Wf := ⟨by decide, by decide⟩

theorem empty_wf : (⟨0, 0, 0, []⟩ : GImage Byte).Wf := ⟨by decide, by decide⟩

/-- A builder without settings. -/
noncomputable def newBuilder : PyrBuilder (GImage Byte) := ⟨.none, 0, 0, 0, 0, 0, ⟨0, 0, 0, []⟩⟩

example : ∃ b r, setFast newBuilder 2 1 = .ok b ∧ pyrBuild (byteOps (fun _ => 3) (fun _ => 0) (fun _ j => 1 / (j + 1))) b [] flat8 = .ok r := by
  obtain ⟨work, pyr', Pic, e, _⟩ := c81_fast_partial (junk := fun _ => 3) (junkB := fun _ => 0) (g := fun _ j => 1 / (j + 1)) (pyr := [])
    (fun σ _ => ⟨by norm_num, fun j => by positivity⟩) (b0 := newBuilder) (n := 2) (σ := 1) rfl empty_wf (by intro l hl; cases hl) flat8_wf
    flat8_bytes (by norm_num) (by norm_num) (by norm_num) (by norm_num) (by
      intro i hi
      have : i = 0 := by omega
      subst this
      norm_num)
  exact ⟨_, _, rfl, e⟩

/-- C81. A pyramid of `oct` octaves with `st` levels each: level `i` has scale `2 ^ (i / st)`, sigma `2 ^ (i / st)` (not rounded) times
that of level zero, and the size of its octave; level zero is the given image, smoothed; every other one is the one before smoothed
by the difference, with every second pixel of it if a new octave starts. -/
theorem c81_fine_partial (hg : ∀ σ, 0 < σ → 0 < g σ 0 ∧ ∀ j, 0 ≤ g σ j) {oct st : Nat} {σ : ℝ} (hb : setFine b0 oct st σ = .ok b)
    (hwork : b0.work.Wf) (hpyr : ∀ l ∈ pyr, l.img.Wf) (hi : img.Wf) (hf : FirstBytes img w h f)
    (hσ : max σ (1 / 2) * 2 ^ oct ≤ 134217728) (hsz : w * h ≤ 2147483647) (hbig : ∀ o, o < oct → 2 ≤ w / 2 ^ o ∧ 2 ≤ h / 2 ^ o) :
    ∃ work pyr', ∃ Pic : Nat → Nat → Nat → Byte, pyrBuild (byteOps junk junkB g) b pyr img = .ok ({ b with work := work }, pyr') ∧
      work.Wf ∧ pyr'.length = oct * st ∧
      (∀ i, i < oct * st → HasLevel pyr' i (2 ^ (i / st)) (max σ (1 / 2) * 2 ^ ((i : ℝ) / st)) (w / 2 ^ (i / st)) (h / 2 ^ (i / st)) (Pic i)) ∧
      LevelZero g (max σ (1 / 2)) w h f (Pic 0) ∧
      ∀ i, i + 1 < oct * st → NextFine g (fun i => max σ (1 / 2) * 2 ^ ((i : ℝ) / st)) st w h i (Pic i) (Pic (i + 1)) := by
  obtain ⟨work, pyr', Pic, e, h1, h2, h3, h4⟩ := build_fine (byteSpec junk junkB g hg) hb hwork (allOk_of hg hpyr) ⟨hi, hf⟩ hσ hsz hbig
  obtain ⟨ho, hst, rfl⟩ := setFine_eq hb
  refine ⟨work, pyr', Pic, e, h1, h4.len, ?_, ?_, ?_⟩
  · intro i hi'
    obtain ⟨m, em, q1, q2, q3⟩ := h4.lev i hi'
    rw [← atLeastInitial_eq]
    exact ⟨m, em, q1, q2, q3⟩
  · rw [← atLeastInitial_eq]
    exact h2
  · rw [← atLeastInitial_eq]
    exact h3

example : ∃ b r, setFine newBuilder 2 3 1 = .ok b ∧ pyrBuild (byteOps (fun _ => 3) (fun _ => 0) (fun _ j => 1 / (j + 1))) b [] flat8 = .ok r := by
  obtain ⟨b, hb⟩ : ∃ b, setFine newBuilder 2 3 1 = .ok b := by
    unfold setFine
    rw [if_neg (by norm_num), if_neg (by norm_num)]
    exact ⟨_, rfl⟩
  obtain ⟨work, pyr', Pic, e, _⟩ := c81_fine_partial (junk := fun _ => 3) (junkB := fun _ => 0) (g := fun _ j => 1 / (j + 1)) (pyr := [])
    (fun σ _ => ⟨by norm_num, fun j => by positivity⟩) hb empty_wf (by intro l hl; cases hl) flat8_wf
    flat8_bytes (by norm_num) (by norm_num) (by
      intro o ho
      match o, ho with
      | 0, _ => norm_num
      | 1, _ => norm_num)
  exact ⟨b, _, hb, e⟩

/-- C81. A pyramid of `n` levels with a factor above one: level `i` has scale `c ^ i`, sigma `2 ^ i` times that of level zero, and size
`⌊w / c ^ i⌋` by `⌊h / c ^ i⌋`; it is the image smoothed step by step to its sigma, and then scaled. -/
theorem c81_scaled_partial (hg : ∀ σ, 0 < σ → 0 < g σ 0 ∧ ∀ j, 0 ≤ g σ j) {n : Nat} {c : Rat} {σ : ℝ} (hb : setScaled b0 n c σ = .ok b)
    (hc : 1 < c) (hwork : b0.work.Wf) (hpyr : ∀ l ∈ pyr, l.img.Wf) (hi : img.Wf) (hf : FirstBytes img w h f)
    (hσ : max σ (1 / 2) * 2 ^ n ≤ 134217728) (hw : 2 ≤ w) (hh : 2 ≤ h) (hsz : w * h ≤ 2147483647) :
    ∃ work pyr', ∃ Acc Pic : Nat → Nat → Nat → Byte, pyrBuild (byteOps junk junkB g) b pyr img = .ok ({ b with work := work }, pyr') ∧
      work.Wf ∧ pyr'.length = n ∧
      (∀ i, i < n → HasLevel pyr' i (c ^ i) (max σ (1 / 2) * 2 ^ i) (⌊(w : Rat) / c ^ i⌋).toNat (⌊(h : Rat) / c ^ i⌋).toNat (Pic i)) ∧
      LevelZero g (max σ (1 / 2)) w h f (Acc 0) ∧ Pic 0 = Acc 0 ∧
      ∀ i, i + 1 < n → Blurred g (Real.sqrt ((max σ (1 / 2) * 2 ^ (i + 1)) ^ 2 - (max σ (1 / 2) * 2 ^ i) ^ 2)) w h (Acc i) (Acc (i + 1)) ∧
        Shrunk (1 / c ^ (i + 1)) (Acc (i + 1)) (Pic (i + 1)) := by
  obtain ⟨work, pyr', Acc, Pic, e, h1, h2, h3⟩ := build_scaled (byteSpec junk junkB g hg) hb hc hwork (allOk_of hg hpyr) ⟨hi, hf⟩ hσ hw hh hsz
  obtain ⟨hn, rfl⟩ := setScaled_eq hb
  refine ⟨work, pyr', Acc, Pic, e, h1, h3.len, ?_, ?_, h2.zero, ?_⟩
  · intro i hi'
    obtain ⟨m, em, q1, q2, q3⟩ := h3.lev i hi'
    rw [scale_one rfl, sigma_one rfl] at em
    rw [scale_one rfl] at q2 q3
    rw [← atLeastInitial_eq]
    exact ⟨m, em, q1, q2, q3⟩
  · rw [← atLeastInitial_eq]
    exact h2.first
  · intro i hi'
    have a := h2.smooth i (by omega)
    have d := h2.scale (i + 1) (by omega) (by omega)
    unfold stepSigma at a
    rw [sigma_one rfl, sigma_one rfl] at a
    rw [scale_one rfl] at d
    rw [← atLeastInitial_eq]
    exact ⟨a, d⟩

example : ∃ b r, setScaled newBuilder 3 (6 / 5) 1 = .ok b ∧
    pyrBuild (byteOps (fun _ => 3) (fun _ => 0) (fun _ j => 1 / (j + 1))) b [] flat8 = .ok r := by
  obtain ⟨work, pyr', Acc, Pic, e, _⟩ := c81_scaled_partial (junk := fun _ => 3) (junkB := fun _ => 0) (g := fun _ j => 1 / (j + 1))
    (pyr := []) (fun σ _ => ⟨by norm_num, fun j => by positivity⟩) (b0 := newBuilder) (n := 3) (c := 6 / 5) (σ := 1) rfl (by norm_num)
    empty_wf (by intro l hl; cases hl) flat8_wf flat8_bytes (by norm_num) (by norm_num) (by norm_num) (by norm_num)
  exact ⟨_, _, rfl, e⟩

/-- Every image has such a picture, but with gaps between rows it is not the one that it shows. -/
theorem firstBytes_exists (hi : img.Wf) : ∃ f, FirstBytes img img.width img.height f := by
  refine ⟨fun x y => (img.data[y * img.width + x]?).getD 0, rfl, rfl, ?_⟩
  intro x y hx hy
  have h1 := pixIdx_lt hx hy
  have h2 : img.width * img.height ≤ img.stride * img.height := Nat.mul_le_mul_right _ hi.stride_ge
  have h3 : y * img.width + x < img.data.length := by
    rw [hi.length_eq]
    omega
  show _ = some ((img.data[y * img.width + x]?).getD 0)
  rw [List.getElem?_eq_getElem h3, Option.getD_some]

/-- C81 fails for images with gaps between rows: pixel `(x, y)` of level zero is byte `y * w + x` of the memory of the image, which ignores
the distance of its rows. -/
theorem c81_padded (hg : ∀ σ, 0 < σ → 0 < g σ 0 ∧ ∀ j, 0 ≤ g σ j) {n : Nat} {σ : ℝ} (hb : setFast b0 n σ = .ok b) (hσ : σ ≤ 1 / 2)
    (hwork : b0.work.Wf) (hpyr : ∀ l ∈ pyr, l.img.Wf) (hi : img.Wf) (hw : 2 ≤ img.width) (hh : 2 ≤ img.height)
    (hsz : img.width * img.height ≤ 2147483647) (hbig : ∀ i, i + 1 < n → 4 ≤ img.width / 2 ^ i ∧ 4 ≤ img.height / 2 ^ i) :
    ∃ r l, pyrBuild (byteOps junk junkB g) b pyr img = .ok r ∧ r.2[0]? = some l ∧ l.img.width = img.width ∧ l.img.height = img.height ∧
      ∀ x y, x < img.width → y < img.height → l.img.pixel x y = img.data[y * img.width + x]? := by
  obtain ⟨f, hf⟩ := firstBytes_exists hi
  obtain ⟨work, pyr', Pic, e, _, _, h1, h2, _⟩ := c81_fast_partial (junk := junk) (junkB := junkB) hg hb hwork hpyr hi hf
    (le_trans hσ (by norm_num)) hw hh hsz hbig
  obtain ⟨m, em, _, hm, _⟩ := (h1 0 (setFast_eq hb).1).level
  refine ⟨_, _, e, em, by rw [hm.width_eq, pow_zero, Nat.div_one], by rw [hm.height_eq, pow_zero, Nat.div_one], ?_⟩
  intro x y hx hy
  unfold LevelZero at h2
  rw [max_eq_right hσ, if_pos rfl] at h2
  rw [hf.data_eq x y hx hy, ← h2]
  exact hm.pixel_eq x y (by rw [pow_zero, Nat.div_one]; exact hx) (by rw [pow_zero, Nat.div_one]; exact hy)

/-- An image of 2 by 2 pixels with rows of three bytes: the first pixel of the second row of its pyramid is not its own. -/
theorem c81_padded_wrong (hg : ∀ σ, 0 < σ → 0 < g σ 0 ∧ ∀ j, 0 ≤ g σ j) :
    ∃ (img : GImage Byte) (b : PyrBuilder (GImage Byte)), img.Wf ∧ setFast newBuilder 1 0 = .ok b ∧
      ∃ r l, pyrBuild (byteOps junk junkB g) b [] img = .ok r ∧ r.2[0]? = some l ∧ img.pixel 0 1 = some 3 ∧ l.img.pixel 0 1 = some 9 := by
  refine ⟨⟨2, 2, 3, [1, 2, 9, 3, 4, 9]⟩, _, ⟨by decide, by decide⟩, rfl, ?_⟩
  obtain ⟨r, l, e1, e2, _, _, e3⟩ := c81_padded (junk := junk) (junkB := junkB) (b0 := newBuilder) (n := 1) (σ := 0) (pyr := [])
    (img := ⟨2, 2, 3, [1, 2, 9, 3, 4, 9]⟩) hg rfl (by norm_num) empty_wf (by intro l hl; cases hl) ⟨by decide, by decide⟩ (by decide) (by decide)
    (by decide) (by intro i hi; omega)
  exact ⟨r, l, e1, e2, rfl, e3 0 1 (by decide) (by decide)⟩

theorem forLoop_from {σ : Type} {n k : Nat} {body : Nat → σ → Res σ} {s s' : σ} (i0 : Nat) (hi : i0 ≤ k) (hk : k ≤ n)
    (h : forLoop k body i0 s = .ok s') : forLoop n body i0 s = forLoop n body k s' := by
  induction hm : k - i0 generalizing i0 s with
  | zero =>
    have : i0 = k := by omega
    subst this
    rw [forLoop, if_neg (Nat.lt_irrefl _)] at h
    rw [Res.ok.inj h]
  | succ m ih =>
    rw [forLoop, if_pos (by omega), Res.bind_eq_ok] at h
    obtain ⟨t, et, h⟩ := h
    rw [forLoop, if_pos (by omega), et, Res.ok_bind]
    exact ih (i0 + 1) (by omega) h (by omega)

/-- C81 fails for more levels than the size of the image allows: if a level but the last has fewer than four rows or columns, memory
outside the images is accessed. -/
theorem c81_fast_small (hg : ∀ σ, 0 < σ → 0 < g σ 0 ∧ ∀ j, 0 ≤ g σ j) {n : Nat} {σ : ℝ} (hb : setFast b0 n σ = .ok b)
    (hwork : b0.work.Wf) (hpyr : ∀ l ∈ pyr, l.img.Wf) (hi : img.Wf) (hf : FirstBytes img w h f) (hσ : σ ≤ 134217728)
    (hw : 2 ≤ w) (hh : 2 ≤ h) (hsz : w * h ≤ 2147483647) (hsmall : ∃ i, i + 1 < n ∧ (w / 2 ^ i < 4 ∨ h / 2 ^ i < 4)) :
    pyrBuild (byteOps junk junkB g) b pyr img = .ub := by
  classical
  obtain ⟨hn, rfl⟩ := setFast_eq hb
  obtain ⟨p1, hL, e⟩ := pyrBuild_ok (byteSpec junk junkB g hg)
    (b := { b0 with kind := .fast, levels := n, octaves := n, steps := 1, factor := 2, sigma0 := atLeastInitial σ }) (pyr := pyr) (img := img)
    (p := f) (allOk_of hg hpyr) (by intro hk; cases hk) Nat.one_pos (by norm_num) hn (by omega) (by omega) hsz ⟨hi, hf⟩
  obtain ⟨p2, q, e2, hF, hL2⟩ := smoothFirst_ok (byteSpec junk junkB g hg) (w := w) (h := h) hn hL (half_le_initial σ)
    (by show atLeastInitial σ ≤ _; rw [atLeastInitial_eq]; exact max_le hσ (by norm_num)) hw hh hsz
  obtain ⟨hk1, hk2⟩ := Nat.find_spec hsmall
  obtain ⟨k, hk⟩ : ∃ k, Nat.find hsmall = k := ⟨_, rfl⟩
  rw [hk] at hk1 hk2
  have hmin : ∀ i, i < k → 4 ≤ w / 2 ^ i ∧ 4 ≤ h / 2 ^ i := by
    intro i hik
    have := Nat.find_min hsmall (m := i) (by omega)
    by_contra hc
    exact this ⟨by omega, by omega⟩
  obtain ⟨⟨wk, p3⟩, e3, hwk, Pic, _, hL3⟩ := fast_prefix (byteSpec junk junkB g hg)
    (b := { b0 with kind := .fast, levels := n, octaves := n, steps := 1, factor := 2, sigma0 := atLeastInitial σ }) hwork hF hL2 hsz (by omega : k ≤ n - 1) hmin
  have hpos : 0 < w / 2 ^ k ∧ 0 < h / 2 ^ k := by
    cases k with
    | zero => rw [pow_zero, Nat.div_one, Nat.div_one]; omega
    | succ k =>
      have := hmin k (Nat.lt_succ_self k)
      rw [← pow_div, ← pow_div]
      omega
  have hub : fastBody (byteOps junk junkB g) k (wk, p3) = .ub := by
    obtain ⟨a, ea, _, ha⟩ := hL3.at (i := k) (by omega)
    obtain ⟨d, ed, hd, _⟩ := hL3.at (i := k + 1) (by omega)
    obtain ⟨a1, a2, a3⟩ := ha (Nat.le_refl k)
    have hlen : a.data.length ≤ 2147483647 := by rw [packed_length a1 a2 a3]; exact area_le hsz
    unfold fastBody
    simp only []
    rw [ea, Res.ok_bind]
    show (aaDownX aaUc junk wk a >>= _) = _
    by_cases hc : w / 2 ^ k < 4
    · rw [aaDownX_narrow hwk a1 hlen (by rw [a2.width_eq]; exact hc) (by rw [a2.height_eq]; exact hpos.2)]
      rfl
    · obtain ⟨r, er, r1, r2⟩ := aaDownX_spec (ops := aaUc) (junk := junk) hwk a1 hlen a2 (by omega)
      have ha' : w / 2 ^ k / 2 * (h / 2 ^ k) ≤ 2147483647 :=
        Nat.le_trans (Nat.mul_le_mul_right _ (Nat.div_le_self _ _)) (area_le hsz)
      have rs := aaDownX_stride hwk (by rw [a2.width_eq, a2.height_eq]; exact ha') er
      rw [a2.width_eq] at rs
      rw [er, Res.ok_bind, ed, Res.ok_bind]
      show (aaDownY aaUc junk d r >>= _) = _
      rw [aaDownY_low hd r1 (by rw [packed_length r1 r2 rs]; exact ha') (by rw [r2.height_eq]; omega) (by rw [r2.width_eq]; omega)]
      rfl
  rw [e]
  show (updateFast (byteOps junk junkB g) _ p1 >>= _) = _
  unfold updateFast
  rw [e2, Res.ok_bind]
  show (forLoop (p2.length - 1) _ 0 (b0.work, p2) >>= _) = _
  rw [hL2.len, forLoop_from 0 (Nat.zero_le k) (by omega) e3, forLoop_ub (by omega) hub]
  rfl

example : ∃ b, setFast newBuilder 4 1 = .ok b ∧
    pyrBuild (byteOps (fun _ => 3) (fun _ => 0) (fun _ j => 1 / (j + 1))) b [] flat8 = .ub :=
  ⟨_, rfl, c81_fast_small (junk := fun _ => 3) (junkB := fun _ => 0) (g := fun _ j => 1 / (j + 1)) (pyr := [])
    (fun σ _ => ⟨by norm_num, fun j => by positivity⟩) (b0 := newBuilder) (n := 4) (σ := 1) rfl empty_wf (by intro l hl; cases hl) flat8_wf
    flat8_bytes (by norm_num) (by norm_num) (by norm_num) (by norm_num) ⟨2, by norm_num, Or.inl (by norm_num)⟩⟩

/-- C81 fails for a factor of one: scaling with factor one accesses memory outside the images. -/
theorem c81_scaled_one (hg : ∀ σ, 0 < σ → 0 < g σ 0 ∧ ∀ j, 0 ≤ g σ j) {n : Nat} {σ : ℝ} (hb : setScaled b0 n 1 σ = .ok b) (hn2 : 2 ≤ n)
    (hpyr : ∀ l ∈ pyr, l.img.Wf) (hi : img.Wf) (hf : FirstBytes img w h f)
    (hσ : max σ (1 / 2) * 2 ≤ 134217728) (hw : 2 ≤ w) (hh : 2 ≤ h) (hw' : w ≤ 32767) (hh' : h ≤ 32767) :
    pyrBuild (byteOps junk junkB g) b pyr img = .ub := by
  have hsz : w * h ≤ 2147483647 := Nat.le_trans (Nat.mul_le_mul hw' hh') (by norm_num)
  obtain ⟨hn, rfl⟩ := setScaled_eq hb
  obtain ⟨b, hbe⟩ : ∃ b : PyrBuilder (GImage Byte),
    b = { b0 with kind := .scaled, levels := n, octaves := 0, steps := 1, factor := 1, sigma0 := atLeastInitial σ } := ⟨_, rfl⟩
  have hσ1 : b.sigma0 = max σ (1 / 2) := by rw [hbe, ← atLeastInitial_eq]
  have hst : b.steps = 1 := by rw [hbe]
  have h12 : 1 / 2 ≤ b.sigma0 := by rw [hσ1]; exact le_max_right _ _
  rw [← hbe]
  obtain ⟨p1, hL, e⟩ := pyrBuild_ok (byteSpec junk junkB g hg) (b := b) (pyr := pyr) (img := img)
    (p := f) (allOk_of hg hpyr) (by rw [hbe]; intro hk; cases hk) (by rw [hst]; exact Nat.one_pos) (by rw [hbe]) (by rw [hbe]; exact hn)
    (by omega) (by omega) hsz ⟨hi, hf⟩
  rw [show b.levels = n by rw [hbe]] at hL
  obtain ⟨p2, q, e2, hF, hL2⟩ := smoothFirst_ok (byteSpec junk junkB g hg) (w := w) (h := h) hn hL h12 (by rw [hσ1]; linarith) hw hh hsz
  obtain ⟨i0, ei, _, hi0⟩ := hL2.at hn
  obtain ⟨d, ed, hd, _⟩ := hL2.at (i := 1) (by omega)
  have hp := levelSigma_pos (b := b) (by linarith) 0
  have hlt := levelSigma_lt (b := b) (by linarith) (by rw [hst]; exact Nat.one_pos) Nat.zero_lt_one
  rw [levelSigma_zero] at hp hlt
  obtain ⟨wk, t, g1, g2, _⟩ := (byteSpec junk junkB g hg).smooth_is (dest := none) (by intro d hd; cases hd) (hi0 rfl) hw hh hsz
    (sqrt_diff_pos (le_of_lt hp) hlt) (le_trans (sqrt_diff_le (le_of_lt hp) (le_of_lt hlt)) (by rw [sigma_one hst, pow_one, hσ1]; exact hσ))
  obtain ⟨k1, k2, k3⟩ := g2
  have hub : scaledBody (byteOps junk junkB g) 0 (i0, p2, b.sigma0) = .ub := by
    unfold scaledBody
    simp only []
    rw [show (0 : Nat) + 1 = 1 from rfl, ed, Res.ok_bind]
    simp only []
    rw [sigmaG_le (le_of_lt hp) (le_of_lt hlt)]
    show ((byteOps junk junkB g).smooth none i0 (Real.sqrt (levelSigma b 1 ^ 2 - b.sigma0 ^ 2)) >>= _) = _
    rw [g1, Res.ok_bind]
    have hs1 : (1 : Rat) / levelScale b 1 = 1 := by
      rw [scale_one hst, show b.factor = 1 by rw [hbe]]
      norm_num
    rw [hs1]
    show (gScale byteVal storeClamped junk d wk 1 >>= _) = _
    rw [c79_scale_up (by intro v; unfold storeClamped; simp only []; split <;> (intro hc; cases hc)) hd k1 (by rw [k2.width_eq]; omega)
      (by rw [k2.height_eq]; omega) (Or.inl rfl) (by rw [k2.width_eq, mul_one]; exact_mod_cast hw')
      (by rw [k2.height_eq, mul_one]; exact_mod_cast hh')]
    rfl
  rw [e, show b.kind = .scaled by rw [hbe]]
  show (updateScaled (byteOps junk junkB g) _ p1 >>= _) = _
  unfold updateScaled
  rw [e2, Res.ok_bind]
  simp only []
  rw [ei, Res.ok_bind]
  show ((forLoop (p2.length - 1) (scaledBody (byteOps junk junkB g)) 0 (i0, p2, b.sigma0) >>= _) >>= _) = _
  rw [hL2.len, forLoop_ub (by omega) hub]
  rfl

end

/-! ## How much the levels are smoothed -/

/-- The contract for what is known about images: distance of pixels and variance. -/
noncomputable def ghostSpec : PyrSpec ghostOps (ℝ × ℝ) where
  Ok _ := True
  Is i w h p := i = ⟨w, h, p.1, p.2⟩
  Src i w h p := i = ⟨w, h, p.1, p.2⟩
  blur σ _ _ p q := q = (p.1, p.2 + (σ * p.1) ^ 2)
  half _ _ p q := q = (2 * p.1, p.2 + 4 / 5 * p.1 ^ 2)
  thin _ _ p q := q = (2 * p.1, p.2)
  shrink c _ _ p q := q = (p.1 / c, p.2)
  is_ok _ := trivial
  alloc_ok := trivial
  size_is h := by subst h; rfl
  create_ok := fun _ _ => ⟨_, rfl, trivial⟩
  load := by
    intro d s w h p _ hs _
    subst hs
    refine ⟨rfl, _, _, rfl, trivial, rfl, rfl, ?_⟩
    simp
  copy_is := fun _ hs => ⟨_, rfl, hs⟩
  smooth_is := by
    intro dest s w h p σ _ hs _ _ _ _ _
    subst hs
    exact ⟨_, (_, _), rfl, rfl, rfl⟩
  half_is := by
    intro work d s w h p _ _ hs _ _ _
    subst hs
    exact ⟨_, _, (_, _), rfl, trivial, rfl, rfl, rfl⟩
  thin_is := by
    intro d s w h p _ hs _
    subst hs
    exact ⟨_, (_, _), rfl, rfl, rfl⟩
  shrink_is := by
    intro d s w h p c _ hs _ _ _ _ _
    subst hs
    exact ⟨_, (_, _), rfl, rfl, rfl⟩

theorem first_var {σ : ℝ} (h : 1 / 2 ≤ σ) {w h' : Nat} {q : ℝ × ℝ} (hq : First ghostSpec σ w h' (1, 1 / 4) q) : q = (1, σ ^ 2) := by
  unfold First at hq
  by_cases hs : σ = 1 / 2
  · rw [if_pos hs] at hq
    rw [hq, hs]
    norm_num
  · rw [if_neg hs] at hq
    have hq : q = (1, 1 / 4 + (Real.sqrt (σ ^ 2 - (1 / 2) ^ 2) * 1) ^ 2) := hq
    rw [hq, mul_one, Real.sq_sqrt (by nlinarith)]
    norm_num

section
variable {b0 b : PyrBuilder Ghost} {pyr : List (PyrLevel Ghost)} {w h : Nat}

theorem step_sq {I : Type} {b : PyrBuilder I} (h0 : 0 < b.sigma0) (hst : 0 < b.steps) (i : Nat) :
    stepSigma b i ^ 2 = levelSigma b (i + 1) ^ 2 - levelSigma b i ^ 2 := by
  have h1 := levelSigma_pos h0 i
  have h2 := levelSigma_lt h0 hst (Nat.lt_succ_self i)
  unfold stepSigma
  rw [Real.sq_sqrt]
  nlinarith

/-- C81. In a pyramid of octaves every level has the smoothing that its sigma says and pixels of the distance that its scale says, if the
given image has smoothing 1/2. -/
theorem c81_fine_labels {oct st : Nat} {σ : ℝ} (hb : setFine b0 oct st σ = .ok b) (hσ : max σ (1 / 2) * 2 ^ oct ≤ 134217728)
    (hsz : w * h ≤ 2147483647) (hbig : ∀ o, o < oct → 2 ≤ w / 2 ^ o ∧ 2 ≤ h / 2 ^ o) :
    ∃ r, pyrBuild ghostOps b pyr ⟨w, h, 1, 1 / 4⟩ = .ok r ∧
      ∀ i, i < oct * st → ∃ l, r.2[i]? = some l ∧ l.img.var = l.sigma ^ 2 ∧ l.img.step = l.scale ∧ l.scale = 2 ^ (i / st) := by
  obtain ⟨work, pyr', Pic, e, _, h2, h3, h4⟩ := build_fine ghostSpec (pyr := pyr) (img := ⟨w, h, 1, 1 / 4⟩) (p := (1, 1 / 4)) hb trivial
    (fun _ _ _ => trivial) rfl hσ hsz hbig
  obtain ⟨ho, hst, hbe⟩ := setFine_eq hb
  have hs : b.steps = st := by rw [hbe]
  have h12 : 1 / 2 ≤ b.sigma0 := by rw [hbe]; exact half_le_initial σ
  rw [hs] at h3 h4
  have key : ∀ i, i < oct * st → Pic i = (2 ^ (i / st), levelSigma b i ^ 2) := by
    intro i
    induction i with
    | zero =>
      intro _
      rw [first_var h12 h2, Nat.zero_div, pow_zero, levelSigma_zero]
    | succ i ih =>
      intro hi
      have hr := h3 i hi
      rw [ih (by omega)] at hr
      unfold FineRel at hr
      rw [hs] at hr
      have hv : levelSigma b i ^ 2 + (stepSigma b i / 2 ^ (i / st) * 2 ^ (i / st)) ^ 2 = levelSigma b (i + 1) ^ 2 := by
        rw [div_mul_cancel₀ _ (by positivity), step_sq (by linarith) (by omega)]
        ring
      by_cases hm : (i + 1) % st = 0
      · rw [if_pos hm] at hr
        obtain ⟨t, ht, hr⟩ := hr
        have ht : t = (2 ^ (i / st), levelSigma b i ^ 2 + (stepSigma b i / 2 ^ (i / st) * 2 ^ (i / st)) ^ 2) := ht
        have hr : Pic (i + 1) = (2 * t.1, t.2) := hr
        rw [hr, ht, hv, div_succ_next hm, pow_succ]
        simp only [Prod.mk.injEq, and_true]
        ring
      · rw [if_neg hm] at hr
        have hr : Pic (i + 1) = (2 ^ (i / st), levelSigma b i ^ 2 + (stepSigma b i / 2 ^ (i / st) * 2 ^ (i / st)) ^ 2) := hr
        rw [hr, hv, div_succ_same hm]
  refine ⟨_, e, ?_⟩
  intro i hi
  obtain ⟨m, em, hm⟩ := h4.lev i hi
  have hm : m = ⟨_, _, (Pic i).1, (Pic i).2⟩ := hm
  rw [key i hi] at hm
  have hsc : levelScale b i = 2 ^ (i / st) := by
    unfold levelScale
    rw [hs, hbe]
  refine ⟨_, em, by rw [hm], ?_, hsc⟩
  rw [hm, hsc]
  push_cast
  rfl

/-- C81. The same for scaled pyramids. -/
theorem c81_scaled_labels {n : Nat} {c : Rat} {σ : ℝ} (hb : setScaled b0 n c σ = .ok b) (hc : 1 < c)
    (hσ : max σ (1 / 2) * 2 ^ n ≤ 134217728) (hw : 2 ≤ w) (hh : 2 ≤ h) (hsz : w * h ≤ 2147483647) :
    ∃ r, pyrBuild ghostOps b pyr ⟨w, h, 1, 1 / 4⟩ = .ok r ∧
      ∀ i, i < n → ∃ l, r.2[i]? = some l ∧ l.img.var = l.sigma ^ 2 ∧ l.img.step = l.scale ∧ l.scale = c ^ i := by
  obtain ⟨work, pyr', Acc, Pic, e, _, h2, h3⟩ := build_scaled ghostSpec (pyr := pyr) (img := ⟨w, h, 1, 1 / 4⟩) (p := (1, 1 / 4)) hb hc
    trivial (fun _ _ _ => trivial) rfl hσ hw hh hsz
  obtain ⟨hn, hbe⟩ := setScaled_eq hb
  have hs : b.steps = 1 := by rw [hbe]
  have hfc : b.factor = c := by rw [hbe]
  have h12 : 1 / 2 ≤ b.sigma0 := by rw [hbe]; exact half_le_initial σ
  have key : ∀ i, i < n → Acc i = (1, levelSigma b i ^ 2) := by
    intro i
    induction i with
    | zero =>
      intro _
      rw [first_var h12 h2.first, levelSigma_zero]
    | succ i ih =>
      intro hi
      have hr : Acc (i + 1) = ((Acc i).1, (Acc i).2 + (stepSigma b i * (Acc i).1) ^ 2) := h2.smooth i (by omega)
      rw [hr, ih (by omega)]
      simp only [mul_one]
      rw [step_sq (by linarith) (by omega)]
      simp only [Prod.mk.injEq, true_and]
      ring
  have key2 : ∀ i, i < n → Pic i = ((c : ℝ) ^ i, levelSigma b i ^ 2) := by
    intro i hi
    by_cases h0 : i = 0
    · subst h0
      rw [h2.zero, key 0 hi, pow_zero]
    · have hr : Pic i = ((Acc i).1 / ((1 / levelScale b i : Rat) : ℝ), (Acc i).2) := h2.scale i (by omega) (by omega)
      rw [hr, key i hi, scale_one hs, hfc]
      push_cast
      rw [one_div_one_div]
  refine ⟨_, e, ?_⟩
  intro i hi
  obtain ⟨m, em, hm⟩ := h3.lev i hi
  have hm : m = ⟨_, _, (Pic i).1, (Pic i).2⟩ := hm
  rw [key2 i hi] at hm
  refine ⟨_, em, by rw [hm], ?_, by rw [scale_one hs, hfc]⟩
  rw [hm, scale_one hs, hfc]
  push_cast
  rfl

/-- C81 fails for fast pyramids: level `i` has variance `σ² + (4 ^ i - 1) * 4 / 15`, so the sigma of a level but the first is right only
if the variance of level zero is 4/15. -/
theorem c81_fast_labels {n : Nat} {σ : ℝ} (hb : setFast b0 n σ = .ok b) (hσ : σ ≤ 134217728) (hw : 2 ≤ w) (hh : 2 ≤ h)
    (hsz : w * h ≤ 2147483647) (hbig : ∀ i, i + 1 < n → 4 ≤ w / 2 ^ i ∧ 4 ≤ h / 2 ^ i) :
    ∃ r, pyrBuild ghostOps b pyr ⟨w, h, 1, 1 / 4⟩ = .ok r ∧
      ∀ i, i < n → ∃ l, r.2[i]? = some l ∧ l.img.var = max σ (1 / 2) ^ 2 + (4 ^ i - 1) * 4 / 15 ∧ l.img.step = l.scale ∧
        (0 < i → (l.img.var = l.sigma ^ 2 ↔ max σ (1 / 2) ^ 2 = 4 / 15)) := by
  obtain ⟨work, pyr', Pic, e, _, h2, h3⟩ := build_fast ghostSpec (pyr := pyr) (img := ⟨w, h, 1, 1 / 4⟩) (p := (1, 1 / 4)) hb trivial
    (fun _ _ _ => trivial) rfl hσ hw hh hsz hbig
  obtain ⟨hn, hbe⟩ := setFast_eq hb
  have hs : b.steps = 1 := by rw [hbe]
  have hfc : b.factor = 2 := by rw [hbe]
  have hs0 : b.sigma0 = max σ (1 / 2) := by rw [hbe, ← atLeastInitial_eq]
  have h12 : 1 / 2 ≤ b.sigma0 := by rw [hs0]; exact le_max_right _ _
  have key : ∀ i, i < n → Pic i = (2 ^ i, b.sigma0 ^ 2 + (4 ^ i - 1) * 4 / 15) := by
    intro i
    induction i with
    | zero =>
      intro _
      rw [first_var h12 h2.first, pow_zero, pow_zero]
      norm_num
    | succ i ih =>
      intro hi
      have hr : Pic (i + 1) = (2 * (Pic i).1, (Pic i).2 + 4 / 5 * (Pic i).1 ^ 2) := h2.next i (by omega)
      rw [hr, ih (by omega)]
      simp only [Prod.mk.injEq]
      have h4 : ((2 : ℝ) ^ i) ^ 2 = 4 ^ i := by rw [← pow_mul, mul_comm, pow_mul]; norm_num
      refine ⟨by ring, ?_⟩
      rw [h4]
      ring
  refine ⟨_, e, ?_⟩
  intro i hi
  obtain ⟨m, em, hm⟩ := h3.lev i hi
  have hm : m = ⟨_, _, (Pic i).1, (Pic i).2⟩ := hm
  rw [key i hi, hs0] at hm
  refine ⟨_, em, by rw [hm], ?_, ?_⟩
  · rw [hm, scale_one hs, hfc]
    push_cast
    rfl
  · intro h0
    rw [hm, sigma_one hs, hs0]
    simp only []
    have h4 : (max σ (1 / 2) * 2 ^ i) ^ 2 = max σ (1 / 2) ^ 2 * 4 ^ i := by
      rw [mul_pow, ← pow_mul, mul_comm i 2, pow_mul]; norm_num
    rw [h4]
    have hpos : (0 : ℝ) < 4 ^ i - 1 := by
      have : (1 : ℝ) < 4 ^ i := one_lt_pow₀ (by norm_num) (by omega)
      linarith
    constructor
    · intro hq
      have : (4 ^ i - 1) * (max σ (1 / 2) ^ 2 - 4 / 15) = 0 := by linarith
      rcases mul_eq_zero.mp this with hz | hz
      · linarith
      · linarith
    · intro hq
      rw [hq]
      ring

/-- With sigma one, level one of a fast pyramid has variance 9/5, not four. -/
example : ∃ b r l, setFast (⟨.none, 0, 0, 0, 0, 0, ⟨0, 0, 1, 0⟩⟩ : PyrBuilder Ghost) 2 1 = .ok b ∧
    pyrBuild ghostOps b [] ⟨8, 8, 1, 1 / 4⟩ = .ok r ∧ r.2[1]? = some l ∧ l.img.var = 9 / 5 := by
  obtain ⟨r, e, hall⟩ := c81_fast_labels (b0 := ⟨.none, 0, 0, 0, 0, 0, ⟨0, 0, 1, 0⟩⟩) (pyr := []) (w := 8) (h := 8) (n := 2) (σ := 1) rfl
    (by norm_num) (by norm_num) (by norm_num) (by norm_num) (by
      intro i hi
      have : i = 0 := by omega
      subst this
      norm_num)
  obtain ⟨l, el, hv, _⟩ := hall 1 (by norm_num)
  refine ⟨_, r, l, rfl, e, el, ?_⟩
  rw [hv, max_eq_left (by norm_num)]
  norm_num

end

end Nx
