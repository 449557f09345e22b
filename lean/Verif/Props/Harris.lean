import Verif.Lemmas.HarrisTensor

/-!
# C82: Harris corners
-/

namespace Nx

/-! ## Detection -/

/-- C82. From an image of scores the keypoints are exactly the corners in reading order, as many as there is room for; nothing is read
outside of the image, and the rest of the array is kept. -/
theorem c82_detect {simg : GImage Rat} {w h : Nat} {s : Nat → Nat → Rat} (hs : simg.Shows w h s) (thr : Rat) (nmax : Nat)
    {keys : List NumKey} (hk : nmax ≤ keys.length) :
    ∃ P, AllCorners w h s thr P ∧ harrisDetect nmax keys simg thr =
      .ok (min P.length nmax, (P.take nmax).mapIdx (keyAt s) ++ keys.drop (min P.length nmax)) :=
  harrisDetect_ok hs thr nmax hk

/-- C82. Without room nothing happens. -/
theorem c82_detect_none (keys : List NumKey) (simg : GImage Rat) (thr : Rat) (nmax : Int) (h : nmax < 1) :
    harrisDetect nmax keys simg thr = .ok (0, keys) := by
  unfold harrisDetect
  rw [if_pos h]

/-- C82. Two corners are never neighbours. -/
theorem c82_separated {w h : Nat} {s : Nat → Nat → Rat} {thr : Rat} {P : List (Nat × Nat)} (hP : AllCorners w h s thr P)
    {p q : Nat × Nat} (hp : p ∈ P) (hq : q ∈ P) (hne : p ≠ q) :
    p.1 + 1 < q.1 ∨ q.1 + 1 < p.1 ∨ p.2 + 1 < q.2 ∨ q.2 + 1 < p.2 := by
  by_contra hc
  have h1 := ((hP.mem_iff p).1 hp).peak q.1 q.2 (by omega) (by omega) (by omega) (by omega) (by
    rintro ⟨a, b⟩
    exact hne (Prod.ext a.symm b.symm))
  have h2 := ((hP.mem_iff q).1 hq).peak p.1 p.2 (by omega) (by omega) (by omega) (by omega) (by
    rintro ⟨a, b⟩
    exact hne (Prod.ext a b))
  exact lt_asymm h1 h2

/-- C82. The list of the corners is unique. -/
theorem c82_corners_unique {w h : Nat} {s : Nat → Nat → Rat} {thr : Rat} {P Q : List (Nat × Nat)} (hP : AllCorners w h s thr P)
    (hQ : AllCorners w h s thr Q) : P = Q := by
  have nd : ∀ {L : List (Nat × Nat)}, L.Pairwise ReadingOrder → L.Nodup := by
    intro L hL
    refine List.Pairwise.imp ?_ hL
    intro a b hab he
    subst he
    unfold ReadingOrder at hab
    omega
  have hperm : P.Perm Q := (List.perm_ext_iff_of_nodup (nd hP.ordered) (nd hQ.ordered)).2 (fun p => by rw [hP.mem_iff, hQ.mem_iff])
  refine List.Perm.eq_of_pairwise (le := ReadingOrder) ?_ hP.ordered hQ.ordered hperm
  intro a b _ _ h1 h2
  unfold ReadingOrder at h1 h2
  omega

/-! ## Scores -/

/-- The window that a value of `sigma_win` stands for: a single pixel without it, else Gaussian weights. -/
def IsWindow (window : Option (Int × (Nat → Rat))) (r : Nat) (wt : Nat → Rat) : Prop :=
  match window with
  | none => r = 0 ∧ wt = fun _ => 1
  | some (t, g) => r = (kernelSize t).toNat / 2 ∧ Gaussian r g wt

/-- A radius that is not negative and values of a Gaussian function. -/
def GoodWindow (window : Option (Int × (Nat → Rat))) : Prop :=
  ∀ t g, window = some (t, g) → 0 ≤ t ∧ 0 < g 0 ∧ ∀ j, 0 ≤ g j

/-- C82. There are weights for every window. -/
theorem c82_window {window : Option (Int × (Nat → Rat))} (hw : GoodWindow window) : ∃ r wt, IsWindow window r wt := by
  cases window with
  | none => exact ⟨0, _, rfl, rfl⟩
  | some tg =>
    obtain ⟨t, g⟩ := tg
    obtain ⟨_, h0, hg⟩ := hw t g rfl
    obtain ⟨S, hS⟩ : ∃ S, (∑ u ∈ Finset.range (2 * ((kernelSize t).toNat / 2) + 1), g ((u : Int) - ((kernelSize t).toNat / 2 : Nat)).natAbs) = S := ⟨_, rfl⟩
    have hpos : 0 < S := by
      rw [← hS]
      apply Finset.sum_pos'
      · intro i _
        exact hg _
      · refine ⟨(kernelSize t).toNat / 2, ?_, ?_⟩
        · rw [Finset.mem_range]
          omega
        · rw [Int.sub_self]
          exact h0
    refine ⟨(kernelSize t).toNat / 2, fun i => g i / S, rfl, ?_, ?_, ?_⟩
    · unfold Normal
      rw [← Finset.sum_div, hS]
      exact div_self (ne_of_gt hpos)
    · intro i
      exact div_nonneg (hg i) hpos.le
    · intro i j
      ring

theorem windowSum_zero (n : Nat) (s : Nat → Rat) (x : Nat) (hx : x < n) : windowSum n 0 (fun _ => 1) s x = s x := by
  have : nearest n ((x : Int) + (0 : Nat) - (0 : Nat)) = x := by
    unfold nearest
    rw [if_neg (by omega), if_pos (by omega)]
    omega
  unfold windowSum
  simp only [Nat.mul_zero, Nat.zero_add, Finset.range_one, Finset.sum_singleton]
  rw [this, one_mul]

theorem moment_zero {w h : Nat} (a b : Nat → Nat → Rat) {x y : Nat} (hx : x < w) (hy : y < h) :
    moment w h 0 (fun _ => 1) a b x y = a x y * b x y := by
  unfold moment
  rw [windowSum_zero h _ y hy, windowSum_zero w _ x hx]

section
variable {junk junkB : Nat → Rat} {dimg : Option (GImage Rat) × Option (GImage Rat) × Option (GImage Rat)} {img : GImage Byte}
  {w h : Nat} {f : Nat → Nat → Byte} {window : Option (Int × (Nat → Rat))}

theorem orAlloc_wf {i : Option (GImage Rat)} (h : ∀ d, i = some d → d.Wf) : (orAlloc i).Wf := by
  cases i with
  | none => exact ⟨Nat.le_refl _, rfl⟩
  | some d => exact h d rfl

/-- C82. The three images are the weighted means of the products of the two derivatives. -/
theorem c82_images (h0 : ∀ d, dimg.1 = some d → d.Wf) (h1 : ∀ d, dimg.2.1 = some d → d.Wf) (h2 : ∀ d, dimg.2.2 = some d → d.Wf)
    (hw : img.Wf) (hsz : img.data.length ≤ 2147483647) (hs : img.Shows w h f) (hst : img.stride = w) (hw2 : 2 ≤ w) (hh2 : 2 ≤ h)
    (hgood : GoodWindow window) {r : Nat} {wt : Nat → Rat} (hwin : IsWindow window r wt) :
    ∃ d0 d1 d2, harrisDeriv junk junkB dimg img window = .ok (d0, d1, d2) ∧ d0.Wf ∧ d1.Wf ∧ d2.Wf ∧
      d0.Shows w h (moment w h r wt (gradX w f) (gradX w f)) ∧ d1.Shows w h (moment w h r wt (gradY h f) (gradY h f)) ∧
      d2.Shows w h (moment w h r wt (gradX w f) (gradY h f)) := by
  have ew := hs.width_eq
  have eh := hs.height_eq
  have hsz' : w * h ≤ 2147483647 := by rw [hw.length_eq, hst, eh] at hsz; exact hsz
  obtain ⟨d0, e0, w0, s0⟩ := c75_deriv_x (conv := byteVal) (S := 255) (junk := junk) (orAlloc_wf h0) hw hsz hs hw2
  obtain ⟨d1, e1, w1, s1⟩ := c75_deriv_y (conv := byteVal) (S := 255) (junk := junk) (orAlloc_wf h1) hw hsz hs hh2 hst
  obtain ⟨d2, e2, ww2, wh2, ws2, wl2⟩ := gResize_ok (junk := junk) (w := d0.width) (h := d0.height) (st := 0) (orAlloc_wf h2)
    (by rw [s0.width_eq, s0.height_eq]; exact hsz') (Nat.zero_le _)
  rw [s0.width_eq] at ww2 ws2 wl2
  rw [s0.height_eq] at wh2 wl2
  have l0 : w ≤ d0.stride := by have := w0.stride_ge; rw [s0.width_eq] at this; exact this
  have l1 : w ≤ d1.stride := by have := w1.stride_ge; rw [s1.width_eq] at this; exact this
  obtain ⟨c, hc⟩ := Pix.exists (st := d2.stride) (w := w) (H := h) (d := d2.data) (by rw [wl2, ws2]) (by omega)
  obtain ⟨q, eq, q0, q1, q2⟩ := products_spec (p := ⟨d0.data, d1.data, d2.data⟩) l0 l1 (by omega) (GImage.Shows.pix w0 s0)
    (GImage.Shows.pix w1 s1) hc
  have v0 : (⟨d0.width, d0.height, d0.stride, q.x2⟩ : GImage Rat).Wf := ⟨w0.stride_ge, by rw [q0.len, s0.height_eq]⟩
  have v1 : (⟨d1.width, d1.height, d1.stride, q.y2⟩ : GImage Rat).Wf := ⟨w1.stride_ge, by rw [q1.len, s1.height_eq]⟩
  have v2 : (⟨d2.width, d2.height, d2.stride, q.xy⟩ : GImage Rat).Wf := ⟨by simp only; omega, by rw [q2.len, wh2]⟩
  have u0 : (⟨d0.width, d0.height, d0.stride, q.x2⟩ : GImage Rat).Shows w h (fun x y => gradX w f x y * gradX w f x y) :=
    ⟨s0.width_eq, s0.height_eq, q0.at'⟩
  have u1 : (⟨d1.width, d1.height, d1.stride, q.y2⟩ : GImage Rat).Shows w h (fun x y => gradY h f x y * gradY h f x y) :=
    ⟨s1.width_eq, s1.height_eq, q1.at'⟩
  have u2 : (⟨d2.width, d2.height, d2.stride, q.xy⟩ : GImage Rat).Shows w h (fun x y => gradX w f x y * gradY h f x y) :=
    ⟨ww2, wh2, q2.at'⟩
  unfold harrisDeriv
  rw [e0]
  simp only [Res.ok_bind]
  rw [e1]
  simp only [Res.ok_bind]
  rw [e2]
  simp only [Res.ok_bind]
  rw [ew, eh, eq]
  simp only [Res.ok_bind]
  cases window with
  | none =>
    obtain ⟨rfl, rfl⟩ := hwin
    refine ⟨_, _, _, rfl, v0, v1, v2, ⟨u0.width_eq, u0.height_eq, ?_⟩, ⟨u1.width_eq, u1.height_eq, ?_⟩,
      ⟨u2.width_eq, u2.height_eq, ?_⟩⟩
    · intro x y hx hy
      rw [u0.pixel_eq x y hx hy, moment_zero _ _ hx hy]
    · intro x y hx hy
      rw [u1.pixel_eq x y hx hy, moment_zero _ _ hx hy]
    · intro x y hx hy
      rw [u2.pixel_eq x y hx hy, moment_zero _ _ hx hy]
  | some tg =>
    obtain ⟨t, g⟩ := tg
    obtain ⟨ht, hg0, hg⟩ := hgood t g rfl
    obtain ⟨rfl, hG⟩ := hwin
    simp only
    have hbl : (filterBuffer (max w h) ((kernelSize t).toNat / 2) junkB).length = max w h + 2 * ((kernelSize t).toNat / 2) := by
      simp [filterBuffer]
    obtain ⟨b0, r0, wt0, k0, wf0, bl0, g0, sh0⟩ := smooth_inplace (junk := junk) (junkB := junkB) v0 hsz' u0 hw2 hh2 ht hg0 hg
      (b := filterBuffer (max w h) ((kernelSize t).toNat / 2) junkB) (by omega) (by omega)
    obtain ⟨b1, r1, wt1, k1, wf1, bl1, g1, sh1⟩ := smooth_inplace (junk := junk) (junkB := junkB) v1 hsz' u1 hw2 hh2 ht hg0 hg
      (b := b0) (by omega) (by omega)
    obtain ⟨b2, r2, wt2, k2, wf2, bl2, g2, sh2⟩ := smooth_inplace (junk := junk) (junkB := junkB) v2 hsz' u2 hw2 hh2 ht hg0 hg
      (b := b1) (by omega) (by omega)
    obtain rfl := g0.unique hg0 hG
    obtain rfl := g1.unique hg0 hG
    obtain rfl := g2.unique hg0 hG
    rw [k0]
    simp only [Res.ok_bind]
    rw [k1]
    simp only [Res.ok_bind]
    rw [k2]
    exact ⟨r0, r1, r2, rfl, wf0, wf1, wf2, sh0, sh1, sh2⟩

/-- C82. The score is the determinant minus `k` times the square of the trace. -/
theorem c82_score {simg d0 d1 d2 : GImage Rat} {A B C : Nat → Nat → Rat} (hd : simg.Wf) (hsz : w * h ≤ 2147483647)
    (h0 : d0.Shows w h A) (h1 : d1.Shows w h B) (h2 : d2.Shows w h C) (k : Rat) :
    ∃ s, harrisScore junk simg d0 d1 d2 k = .ok s ∧ s.Wf ∧ s.Shows w h (fun x y => response k (A x y) (B x y) (C x y)) := by
  obtain ⟨s, e, sw, sh, ss, sl⟩ := gResize_ok (junk := junk) (w := d0.width) (h := d0.height) (st := 0) hd
    (by rw [h0.width_eq, h0.height_eq]; exact hsz) (Nat.zero_le _)
  rw [h0.width_eq] at sw ss sl
  rw [h0.height_eq] at sh sl
  obtain ⟨d, ed, hF⟩ := fill_spec (st := s.stride) (H := h) (w := w) (f := fun x y => response k (A x y) (B x y) (C x y))
    (body := fun y => scoreBody d0 d1 d2 k s.stride y) (by omega) (d0 := s.data) (by rw [sl, ss]) (by
      intro y x d hy hx hl
      unfold scoreBody
      rw [h0.read hx hy, h1.read hx hy, h2.read hx hy]
      simp only [Res.ok_bind]
      rw [writeAt_ok _ (by rw [hl]; exact pixIdx_lt (by omega) hy)]
      congr 2
      unfold response
      ring)
  refine ⟨{ s with data := d }, ?_, ⟨by simp only; omega, by rw [hF.1]; simp only; rw [sh]⟩, shows_of_filled sw sh hF⟩
  unfold harrisScore
  rw [e]
  simp only [Res.ok_bind]
  rw [h0.height_eq, h0.width_eq, ed]
  rfl

end

/-- C82. The determinant of the matrix of means is never negative, and at most a quarter of the square of the trace. -/
theorem c82_det {w h r : Nat} {wt : Nat → Rat} (hp : ∀ k, 0 ≤ wt k) (a b : Nat → Nat → Rat) (x y : Nat) :
    0 ≤ moment w h r wt a a x y * moment w h r wt b b x y - moment w h r wt a b x y ^ 2 ∧
      moment w h r wt a a x y * moment w h r wt b b x y - moment w h r wt a b x y ^ 2 ≤
        (moment w h r wt a a x y + moment w h r wt b b x y) ^ 2 / 4 := by
  have := moment_det (w := w) (h := h) (r := r) hp a b x y
  constructor
  · linarith
  · nlinarith [sq_nonneg (moment w h r wt a a x y - moment w h r wt b b x y), sq_nonneg (moment w h r wt a b x y)]

/-! ## Images without corners -/

theorem no_corners {w h : Nat} {s : Nat → Nat → Rat} {thr : Rat} (hthr : 0 ≤ thr) (hs : ∀ x y, x < w → y < h → s x y ≤ 0)
    {P : List (Nat × Nat)} (hP : AllCorners w h s thr P) : P = [] := by
  cases P with
  | nil => rfl
  | cons p P =>
    have hc := (hP.mem_iff p).1 List.mem_cons_self
    have h1 := hs p.1 p.2 (by have := hc.right; omega) (by have := hc.bottom; omega)
    have h2 := hc.high
    exfalso
    linarith

/-- C82. Without a window nothing is a corner. -/
theorem c82_no_window {w h : Nat} {k thr : Rat} {f : Nat → Nat → Byte} (hk : 0 ≤ k) (hthr : 0 ≤ thr) {r : Nat} {wt : Nat → Rat}
    (hwin : IsWindow none r wt) {P : List (Nat × Nat)} (hP : AllCorners w h (harrisMap w h r wt k f) thr P) : P = [] := by
  obtain ⟨rfl, rfl⟩ := hwin
  refine no_corners hthr ?_ hP
  intro x y hx hy
  unfold harrisMap response
  rw [moment_zero _ _ hx hy, moment_zero _ _ hx hy, moment_zero _ _ hx hy]
  have := mul_nonneg hk (sq_nonneg (gradX w f x y * gradX w f x y + gradY h f x y * gradY h f x y))
  nlinarith

/-- C82. With `k` of at least a quarter nothing is a corner. -/
theorem c82_large_k {w h : Nat} {k thr : Rat} {f : Nat → Nat → Byte} (hk : 1 / 4 ≤ k) (hthr : 0 ≤ thr) {r : Nat} {wt : Nat → Rat}
    (hp : ∀ k, 0 ≤ wt k) {P : List (Nat × Nat)} (hP : AllCorners w h (harrisMap w h r wt k f) thr P) : P = [] := by
  refine no_corners hthr ?_ hP
  intro x y hx hy
  unfold harrisMap response
  have h1 := (c82_det (w := w) (h := h) (r := r) hp (gradX w f) (gradY h f) x y).2
  have h2 := mul_nonneg (sub_nonneg.2 hk)
    (sq_nonneg (moment w h r wt (gradX w f) (gradX w f) x y + moment w h r wt (gradY h f) (gradY h f) x y))
  nlinarith

theorem windowSum_const_zero (n r : Nat) (wt : Nat → Rat) (x : Nat) {s : Nat → Rat} (hn : 0 < n) (hs : ∀ i, i < n → s i = 0) :
    windowSum n r wt s x = 0 := by
  unfold windowSum
  apply Finset.sum_eq_zero
  intro t _
  rw [hs, mul_zero]
  unfold nearest
  split
  · exact hn
  · split <;> omega

theorem neighbourDiff_const {n : Nat} (hn : 2 ≤ n) {s : Nat → Rat} {c : Rat} (hs : ∀ i, i < n → s i = c) {i : Nat} (_hi : i < n) :
    neighbourDiff n s i = 0 := by
  have e : ∀ j : Int, extrapolate n s j = c := by
    intro j
    unfold extrapolate
    split
    · rw [hs 0 (by omega), hs 1 (by omega)]
      ring
    · split
      · exact hs _ (by omega)
      · rw [hs (n - 1) (by omega), hs (n - 2) (by omega)]
        ring
  unfold neighbourDiff
  rw [e, e, sub_self]

/-- C82. An image whose rows are all the same, or whose columns are all the same, has no corners. -/
theorem c82_straight {w h : Nat} {k thr : Rat} {f : Nat → Nat → Byte} (hw2 : 2 ≤ w) (hh2 : 2 ≤ h) (hk : 0 ≤ k) (hthr : 0 ≤ thr) {r : Nat}
    {wt : Nat → Rat} (hf : (∀ x y, x < w → y < h → f x y = f x 0) ∨ (∀ x y, x < w → y < h → f x y = f 0 y))
    {P : List (Nat × Nat)} (hP : AllCorners w h (harrisMap w h r wt k f) thr P) : P = [] := by
  refine no_corners hthr ?_ hP
  intro x y hx hy
  have key : ∀ A B C : Rat, (A = 0 ∨ B = 0) → C = 0 → response k A B C ≤ 0 := by
    intro A B C hAB hC
    have hAB' : A * B = 0 := mul_eq_zero.2 hAB
    unfold response
    rw [hAB', hC]
    have := mul_nonneg hk (sq_nonneg (A + B))
    nlinarith
  have mz : ∀ a b : Nat → Nat → Rat, (∀ i j, i < w → j < h → a i j * b i j = 0) → moment w h r wt a b x y = 0 := by
    intro a b hab
    unfold moment
    apply windowSum_const_zero _ _ _ _ (by omega)
    intro j hj
    apply windowSum_const_zero _ _ _ _ (by omega)
    intro i hi
    exact hab i j hi hj
  rcases hf with hf | hf
  · have hy0 : ∀ i j, i < w → j < h → gradY h f i j = 0 := by
      intro i j hi hj
      unfold gradY
      rw [neighbourDiff_const hh2 (c := byteVal (f i 0)) (fun t ht => by rw [hf i t hi ht]) hj, zero_div]
    apply key
    · right
      apply mz
      intro i j hi hj
      rw [hy0 i j hi hj, zero_mul]
    · apply mz
      intro i j hi hj
      rw [hy0 i j hi hj, mul_zero]
  · have hx0 : ∀ i j, i < w → j < h → gradX w f i j = 0 := by
      intro i j hi hj
      unfold gradX
      rw [neighbourDiff_const hw2 (c := byteVal (f 0 j)) (fun t ht => by rw [hf t j ht hj]) hi, zero_div]
    apply key
    · left
      apply mz
      intro i j hi hj
      rw [hx0 i j hi hj, zero_mul]
    · apply mz
      intro i j hi hj
      rw [hx0 i j hi hj, zero_mul]

/-! ## Threshold -/

/-- C82. The threshold stays positive. -/
theorem c82_adapt_pos {thr : Rat} (h : 0 < thr) (n max : Int) : 0 < harrisAdapt thr n max := by
  unfold harrisAdapt
  split_ifs <;> linarith

/-- C82. With too many keypoints it grows. -/
theorem c82_adapt_up {thr : Rat} (h : 0 < thr) {n max : Int} (hn : max < n) : thr < harrisAdapt thr n max := by
  unfold harrisAdapt
  split_ifs <;> linarith

/-- C82. With clearly too few keypoints it shrinks. -/
theorem c82_adapt_down {thr : Rat} (h : 0 < thr) {n max : Int} (hm : 0 ≤ max) (hn : (n : Rat) < 99 / 100 * max) :
    harrisAdapt thr n max < thr := by
  have hm' : (0 : Rat) ≤ max := by exact_mod_cast hm
  have h1 : ¬ max < n := by
    intro hc
    have : (max : Rat) < n := by exact_mod_cast hc
    linarith
  unfold harrisAdapt
  split_ifs <;> linarith

/-- C82. In between it stays. -/
theorem c82_adapt_keep {thr : Rat} {n max : Int} (hm : 0 ≤ max) (h1 : n ≤ max) (h2 : 99 / 100 * (max : Rat) ≤ n) :
    harrisAdapt thr n max = thr := by
  have hm' : (0 : Rat) ≤ max := by exact_mod_cast hm
  have h1' : (n : Rat) ≤ max := by exact_mod_cast h1
  unfold harrisAdapt
  rw [if_neg (by linarith), if_neg (by linarith), if_neg (by linarith), if_neg (by omega), if_neg (by linarith), if_neg (by linarith),
    if_neg (by linarith), if_neg (by linarith)]

set_option maxHeartbeats 1600000 in
/-- C82. More keypoints never give a lower threshold. -/
theorem c82_adapt_mono {thr : Rat} (h : 0 ≤ thr) {n n' max : Int} (hm : 0 ≤ max) (hn : n ≤ n') :
    harrisAdapt thr n max ≤ harrisAdapt thr n' max := by
  have hm' : (0 : Rat) ≤ max := by exact_mod_cast hm
  have hn' : (n : Rat) ≤ n' := by exact_mod_cast hn
  have a1 : max < n ↔ (max : Rat) < n := by exact_mod_cast Iff.rfl
  have a2 : max < n' ↔ (max : Rat) < n' := by exact_mod_cast Iff.rfl
  unfold harrisAdapt
  simp only [gt_iff_lt, a1, a2]
  split_ifs <;> linarith

/-! ## The class -/

/-- The images of the detector are well formed. -/
structure HarrisDetector.Ok (det : HarrisDetector) : Prop where
  d0 : det.dimg.1.Wf
  d1 : det.dimg.2.1.Wf
  d2 : det.dimg.2.2.Wf
  s : det.simg.Wf

/-- An image without padding that is not too large and at least two pixels wide and high. -/
structure PlainImage (img : GImage Byte) (w h : Nat) (f : Nat → Nat → Byte) : Prop where
  wf : img.Wf
  size : img.data.length ≤ 2147483647
  shows_ : img.Shows w h f
  stride_eq : img.stride = w
  wide : 2 ≤ w
  high : 2 ≤ h

theorem updateScore_ok {p : HarrisParam} {det : HarrisDetector} {img : GImage Byte} {w h : Nat} {f : Nat → Nat → Byte} (hd : det.Ok)
    (hi : PlainImage img w h f) (hgood : GoodWindow p.window) {r : Nat} {wt : Nat → Rat} (hwin : IsWindow p.window r wt) :
    ∃ det', updateScore p det img = .ok det' ∧ det'.Ok ∧ det'.threshold = det.threshold ∧
      det'.simg.Shows w h (harrisMap w h r wt p.k f) := by
  obtain ⟨d0, d1, d2, e, w0, w1, w2, s0, s1, s2⟩ := c82_images (junk := p.junk) (junkB := p.junkB)
    (dimg := (some det.dimg.1, some det.dimg.2.1, some det.dimg.2.2)) (by intro d h; cases h; exact hd.d0)
    (by intro d h; cases h; exact hd.d1) (by intro d h; cases h; exact hd.d2) hi.wf hi.size hi.shows_ hi.stride_eq hi.wide hi.high
    hgood hwin
  have hsz : w * h ≤ 2147483647 := by
    have := hi.size
    rw [hi.wf.length_eq, hi.stride_eq, hi.shows_.height_eq] at this
    exact this
  obtain ⟨s, es, ws, ss⟩ := c82_score (junk := p.junk) hd.s hsz s0 s1 s2 p.k
  refine ⟨{ det with dimg := (d0, d1, d2), simg := s }, ?_, ⟨w0, w1, w2, ws⟩, rfl, ss⟩
  unfold updateScore
  rw [e]
  simp only [Res.ok_bind]
  rw [es]
  rfl

theorem vecResize_length {α : Type} (blank : α) (v : List α) (n : Nat) : (vecResize blank v n).length = n := by
  unfold vecResize
  rw [List.length_append, List.length_take, List.length_replicate]
  omega

theorem take_mapIdx' {α β : Type} (f : Nat → α → β) (l : List α) (n : Nat) : (l.mapIdx f).take n = (l.take n).mapIdx f := by
  apply List.ext_getElem?
  intro i
  simp only [List.getElem?_take, List.getElem?_mapIdx]
  split <;> rfl

theorem vecResize_le {α : Type} (blank : α) {v : List α} {n : Nat} (h : n ≤ v.length) : vecResize blank v n = v.take n := by
  unfold vecResize
  rw [show n - v.length = 0 by omega, List.replicate_zero, List.append_nil]

/-- C82. `detect` gives the corners of the image in reading order, at most `max` of them, and adapts the threshold to the number of
corners, counted up to `2 * max`. -/
theorem c82_vg_detect_partial {p : HarrisParam} {det : HarrisDetector} {img : GImage Byte} {w h : Nat} {f : Nat → Nat → Byte}
    (hd : det.Ok) (hi : PlainImage img w h f) (hgood : GoodWindow p.window) {r : Nat} {wt : Nat → Rat}
    (hwin : IsWindow p.window r wt) (keys : List NumKey) {max : Nat} (hmax : 0 < max) (hmax' : 2 * max ≤ 2147483647) (adapt : Bool) :
    ∃ P det', AllCorners w h (harrisMap w h r wt p.k f) det.threshold P ∧
      vgDetect p det img keys max adapt = .ok (det', (P.take max).mapIdx (keyAt (harrisMap w h r wt p.k f)), min P.length max) ∧
      det'.Ok ∧ det'.threshold = if adapt then harrisAdapt det.threshold (min P.length (2 * max) : Nat) max else det.threshold := by
  obtain ⟨det1, e1, ok1, t1, s1⟩ := updateScore_ok hd hi hgood hwin
  obtain ⟨P, hP, eP⟩ := c82_detect s1 det1.threshold (2 * max) (keys := vecResize p.blank keys (2 * max))
    (by rw [vecResize_length])
  rw [t1] at hP
  refine ⟨P, if adapt then { det1 with threshold := harrisAdapt det1.threshold (min P.length (2 * max) : Nat) max } else det1, hP, ?_, ?_, ?_⟩
  · unfold vgDetect
    rw [if_pos hmax, e1]
    simp only [Res.ok_bind]
    rw [if_pos hmax']
    have ec : ((2 * max : Nat) : Int) = 2 * (max : Int) := by omega
    rw [ec] at eP
    rw [eP]
    simp only [Res.ok_bind]
    have en : (if min P.length (2 * max) > max then max else min P.length (2 * max)) = min P.length max := by
      split <;> omega
    rw [en]
    have el : vecResize p.blank ((P.take (2 * max)).mapIdx (keyAt (harrisMap w h r wt p.k f)) ++
        (vecResize p.blank keys (2 * max)).drop (min P.length (2 * max))) (min P.length max) =
        (P.take max).mapIdx (keyAt (harrisMap w h r wt p.k f)) := by
      have hl : ((P.take (2 * max)).mapIdx (keyAt (harrisMap w h r wt p.k f))).length = min P.length (2 * max) := by
        rw [List.length_mapIdx, List.length_take, Nat.min_comm]
      rw [vecResize_le _ (by rw [List.length_append, hl]; omega), List.take_append_of_le_length (by rw [hl]; omega), take_mapIdx',
        List.take_take]
      have : min (min P.length max) (2 * max) = min P.length max := by omega
      rw [this]
      congr 1
      rcases Nat.le_total P.length max with hc | hc
      · rw [Nat.min_eq_left hc, List.take_length, List.take_of_length_le hc]
      · rw [Nat.min_eq_right hc]
    rw [el]
    rfl
  · split
    · exact ⟨ok1.d0, ok1.d1, ok1.d2, ok1.s⟩
    · exact ok1
  · rw [← t1]
    split <;> rfl

/-- C82. Without positive `max` the program stops. -/
theorem c82_vg_detect_zero (p : HarrisParam) (det : HarrisDetector) (img : GImage Byte) (keys : List NumKey) (adapt : Bool) :
    vgDetect p det img keys 0 adapt = .fatal := rfl

end Nx
