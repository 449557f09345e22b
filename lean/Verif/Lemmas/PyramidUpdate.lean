import Verif.Lemmas.Pyramid

/-!
# The three ways of computing the levels of a pyramid

For functions for images with a contract `PyrSpec`.
-/

namespace Nx

/-! ## Standard deviations -/

theorem sigmaG_le {c d : ℝ} (hc : 0 ≤ c) (hd : c ≤ d) : sigmaG c d = some (Real.sqrt (d ^ 2 - c ^ 2)) := by
  have h : 0 ≤ d * d - c * c := by nlinarith
  unfold sigmaG
  rw [if_neg (not_lt.mpr h)]
  congr 2
  ring

theorem sqrt_diff_pos {c d : ℝ} (hc : 0 ≤ c) (hd : c < d) : 0 < Real.sqrt (d ^ 2 - c ^ 2) := by
  apply Real.sqrt_pos.mpr
  nlinarith

theorem sqrt_diff_le {c d : ℝ} (hc : 0 ≤ c) (hd : c ≤ d) : Real.sqrt (d ^ 2 - c ^ 2) ≤ d := by
  rw [Real.sqrt_le_left (by linarith)]
  nlinarith [sq_nonneg c]

theorem sqrt_diff_mul {c d m : ℝ} (hm : 0 ≤ m) : Real.sqrt ((d * m) ^ 2 - (c * m) ^ 2) = Real.sqrt (d ^ 2 - c ^ 2) * m := by
  have : (d * m) ^ 2 - (c * m) ^ 2 = (d ^ 2 - c ^ 2) * m ^ 2 := by ring
  rw [this, Real.sqrt_mul' _ (sq_nonneg m), Real.sqrt_sq hm]

section
variable {I P : Type} {ops : PyrOps I} (C : PyrSpec ops P) {b : PyrBuilder I}

theorem levelSigma_pos (h0 : 0 < b.sigma0) (i : Nat) : 0 < levelSigma b i := by
  unfold levelSigma
  exact mul_pos h0 (Real.rpow_pos_of_pos (by norm_num) _)

theorem levelSigma_lt (h0 : 0 < b.sigma0) (hst : 0 < b.steps) {i j : Nat} (hij : i < j) : levelSigma b i < levelSigma b j := by
  unfold levelSigma
  apply mul_lt_mul_of_pos_left _ h0
  apply Real.rpow_lt_rpow_of_exponent_lt (by norm_num)
  have h1 : (0 : ℝ) < b.steps := by exact_mod_cast hst
  have h2 : (i : ℝ) < j := by exact_mod_cast hij
  exact div_lt_div_of_pos_right h2 h1

/-- The smoothing between two levels. -/
noncomputable def stepSigma (b : PyrBuilder I) (i : Nat) : ℝ := Real.sqrt (levelSigma b (i + 1) ^ 2 - levelSigma b i ^ 2)

/-- Level zero: the given image, which is taken to be smoothed by 1/2 already, smoothed to `sigma0`. -/
def First (σ : ℝ) (w h : Nat) (p q : P) : Prop :=
  if σ = 1 / 2 then q = p else C.blur (Real.sqrt (σ ^ 2 - (1 / 2) ^ 2)) w h p q

theorem smoothFirst_ok {n w h : Nat} {p : P} {pyr : List (PyrLevel I)} (hn : 0 < n)
    (hL : Levels b n (fun i img => C.Ok img ∧ (i = 0 → C.Is img w h p)) pyr) (h0 : 1 / 2 ≤ b.sigma0) (h1 : b.sigma0 ≤ 134217728)
    (hw : 2 ≤ w) (hh : 2 ≤ h) (hsz : w * h ≤ 2147483647) :
    ∃ pyr' q, smoothFirst ops pyr = .ok (pyr', b.sigma0) ∧ First C b.sigma0 w h p q ∧
      Levels b n (fun i img => C.Ok img ∧ (i = 0 → C.Is img w h q)) pyr' := by
  obtain ⟨img, e, hok, his⟩ := hL.at hn
  rw [levelSigma_zero] at e
  unfold smoothFirst
  rw [e, Res.ok_bind]
  simp only []
  rw [show sigmaG initialSigma b.sigma0 = some (Real.sqrt (b.sigma0 ^ 2 - (1 / 2) ^ 2)) from
    sigmaG_le (by unfold initialSigma; norm_num) h0]
  unfold First
  by_cases hs : b.sigma0 = 1 / 2
  · refine ⟨pyr, p, ?_, by rw [if_pos hs], hL⟩
    have hz : ¬ positive (some (Real.sqrt (b.sigma0 ^ 2 - (1 / 2) ^ 2))) := by
      rw [hs, sub_self, Real.sqrt_zero]
      exact lt_irrefl 0
    rw [if_neg hz, hs]
    rfl
  · have hlt : 1 / 2 < b.sigma0 := lt_of_le_of_ne h0 (Ne.symm hs)
    have hp := sqrt_diff_pos (by norm_num) hlt
    obtain ⟨d, q, e1, e2, e3⟩ := C.smooth_is (dest := none) (by intro d hd; cases hd) (his rfl) hw hh hsz hp
      (le_trans (sqrt_diff_le (by norm_num) h0) h1)
    obtain ⟨pyr', e4, hL'⟩ := hL.set (Q' := fun i img => C.Ok img ∧ (i = 0 → C.Is img w h q)) hn (img := d)
      ⟨C.is_ok e2, fun _ => e2⟩ (by intro j m _ hj hm; exact ⟨hm.1, fun h0 => absurd h0 hj⟩)
    refine ⟨pyr', q, ?_, by rw [if_neg hs]; exact e3, hL'⟩
    have hz : positive (some (Real.sqrt (b.sigma0 ^ 2 - (1 / 2) ^ 2))) := hp
    rw [if_pos hz]
    show (ops.smooth none img (Real.sqrt (b.sigma0 ^ 2 - (1 / 2) ^ 2)) >>= _) = _
    rw [e1, Res.ok_bind, e4]
    rfl

/-! ## Fast pyramids -/

theorem pow_div (w i : Nat) : w / 2 ^ i / 2 = w / 2 ^ (i + 1) := by
  rw [Nat.div_div_eq_div_mul, pow_succ]

theorem area_le {w h M a c : Nat} (hsz : w * h ≤ M) : w / a * (h / c) ≤ M :=
  Nat.le_trans (Nat.mul_le_mul (Nat.div_le_self _ _) (Nat.div_le_self _ _)) hsz

/-- The levels of a fast pyramid. -/
structure FastPyr (b : PyrBuilder I) (n w h : Nat) (p : P) (Pic : Nat → P) (k : Nat) : Prop where
  first : First C b.sigma0 w h p (Pic 0)
  next : ∀ i, i + 1 ≤ k → C.half (w / 2 ^ i) (h / 2 ^ i) (Pic i) (Pic (i + 1))

theorem fast_prefix {n w h : Nat} {p q : P} {pyr : List (PyrLevel I)} (hwork : C.Ok b.work) (hF : First C b.sigma0 w h p q)
    (hL : Levels b n (fun i img => C.Ok img ∧ (i = 0 → C.Is img w h q)) pyr) (hsz : w * h ≤ 2147483647) {m : Nat} (hm : m ≤ n - 1)
    (hbig : ∀ i, i < m → 4 ≤ w / 2 ^ i ∧ 4 ≤ h / 2 ^ i) :
    ∃ s, forLoop m (fastBody ops) 0 (b.work, pyr) = .ok s ∧ C.Ok s.1 ∧ ∃ Pic, FastPyr C b n w h p Pic m ∧
      Levels b n (fun i img => C.Ok img ∧ (i ≤ m → C.Is img (w / 2 ^ i) (h / 2 ^ i) (Pic i))) s.2 := by
  exact forLoop_spec (n := m) (i0 := 0) (s := (b.work, pyr)) (body := fastBody ops)
    (fun k s => C.Ok s.1 ∧ ∃ Pic, FastPyr C b n w h p Pic k ∧
      Levels b n (fun i img => C.Ok img ∧ (i ≤ k → C.Is img (w / 2 ^ i) (h / 2 ^ i) (Pic i))) s.2) (Nat.zero_le _)
    ⟨hwork, fun _ => q, ⟨hF, by intro i hi; omega⟩, hL.weaken (by
      intro i img _ hi
      refine ⟨hi.1, fun h0 => ?_⟩
      have h0 : i = 0 := by omega
      subst h0
      rw [pow_zero, Nat.div_one, Nat.div_one]
      exact hi.2 rfl)⟩ (by
      rintro k ⟨work, pyr⟩ _ hk ⟨hwk, Pic, hP, hL⟩
      obtain ⟨hb1, hb2⟩ := hbig k (by omega)
      obtain ⟨a, ea, _, ha⟩ := hL.at (i := k) (by omega)
      obtain ⟨d, ed, hd, _⟩ := hL.at (i := k + 1) (by omega)
      obtain ⟨k', r, t, g1, g2, g3, g4, g5⟩ := C.half_is hwk hd (ha (Nat.le_refl k)) hb1 hb2 (area_le hsz)
      rw [pow_div, pow_div] at g4
      obtain ⟨pyr', e4, hL'⟩ := hL.set (Q' := fun i img => C.Ok img ∧ (i ≤ k + 1 → C.Is img (w / 2 ^ i) (h / 2 ^ i)
        (if i ≤ k then Pic i else t))) (i := k + 1) (by omega) (img := r) ⟨C.is_ok g4, fun _ => by rw [if_neg (by omega)]; exact g4⟩ (by
          intro j m _ hj hm
          refine ⟨hm.1, fun hle => ?_⟩
          rw [if_pos (by omega)]
          exact hm.2 (by omega))
      refine ⟨(k', pyr'), ?_, g2, fun i => if i ≤ k then Pic i else t, ⟨?_, ?_⟩, hL'⟩
      · unfold fastBody
        simp only [] at ea ed ⊢
        rw [ea, Res.ok_bind, g1, Res.ok_bind, ed, Res.ok_bind, g3, Res.ok_bind, e4]
        rfl
      · rw [if_pos (Nat.zero_le k)]
        exact hP.first
      · intro i hi
        by_cases hik : i = k
        · subst hik
          rw [if_pos (Nat.le_refl i), if_neg (by omega)]
          exact g5
        · rw [if_pos (by omega), if_pos (by omega)]
          exact hP.next i (by omega))

theorem updateFast_ok {n w h : Nat} {p : P} {pyr : List (PyrLevel I)} (hn : 0 < n) (hwork : C.Ok b.work)
    (hL : Levels b n (fun i img => C.Ok img ∧ (i = 0 → C.Is img w h p)) pyr) (h0 : 1 / 2 ≤ b.sigma0) (h1 : b.sigma0 ≤ 134217728)
    (hw : 2 ≤ w) (hh : 2 ≤ h) (hsz : w * h ≤ 2147483647) (hbig : ∀ i, i + 1 < n → 4 ≤ w / 2 ^ i ∧ 4 ≤ h / 2 ^ i) :
    ∃ work pyr' Pic, updateFast ops b pyr = .ok (work, pyr') ∧ C.Ok work ∧ FastPyr C b n w h p Pic (n - 1) ∧
      Levels b n (fun i img => C.Is img (w / 2 ^ i) (h / 2 ^ i) (Pic i)) pyr' := by
  obtain ⟨p1, q, e1, hF, hL1⟩ := smoothFirst_ok C hn hL h0 h1 hw hh hsz
  obtain ⟨⟨work, p2⟩, e2, hwk, Pic, hP, hL2⟩ := fast_prefix C hwork hF hL1 hsz (Nat.le_refl _) (fun i hi => hbig i (by omega))
  refine ⟨work, p2, Pic, ?_, hwk, hP, hL2.weaken (by intro i img hi hq; exact hq.2 (by omega))⟩
  unfold updateFast
  rw [e1, Res.ok_bind]
  simp only []
  rw [hL1.len, e2]

/-! ## Fine pyramids -/

/-- Level `i + 1` of a fine pyramid: level `i` smoothed by the difference, in pixels of its octave, and every second pixel of that
if a new octave starts. -/
def FineRel (b : PyrBuilder I) (w h : Nat) (i : Nat) (p q : P) : Prop :=
  let o := i / b.steps
  let σ := stepSigma b i / 2 ^ o
  if (i + 1) % b.steps = 0 then ∃ t, C.blur σ (w / 2 ^ o) (h / 2 ^ o) p t ∧ C.thin (w / 2 ^ o) (h / 2 ^ o) t q
  else C.blur σ (w / 2 ^ o) (h / 2 ^ o) p q

/-- After level `m` of a fine pyramid has been computed. -/
structure FineInv (b : PyrBuilder I) (n w h : Nat) (p : P) (m : Nat) (s : FineState I) (Pic : Nat → P) : Prop where
  work : C.Ok s.work
  levels : Levels b n (fun i img => C.Ok img ∧ (i ≤ m → C.Is img (w / 2 ^ (i / b.steps)) (h / 2 ^ (i / b.steps)) (Pic i))) s.pyr
  first : First C b.sigma0 w h p (Pic 0)
  next : ∀ i, i + 1 ≤ m → FineRel C b w h i (Pic i) (Pic (i + 1))
  mult : s.mult = (1 / 2) ^ (m / b.steps)
  current : s.current = levelSigma b m * s.mult

theorem half_pow (o : Nat) : 0 < ((1 : ℝ) / 2) ^ o ∧ ((1 : ℝ) / 2) ^ o ≤ 1 :=
  ⟨pow_pos (by norm_num) o, pow_le_one₀ (by norm_num) (by norm_num)⟩

/-- The smoothing from level `m` to the next one. -/
theorem fine_smooth {n w h : Nat} {p : P} {m : Nat} {s : FineState I} {Pic : Nat → P} (hI : FineInv C b n w h p m s Pic)
    (hst : 0 < b.steps) (h0 : 0 < b.sigma0) (hb : ∀ i, i < n → levelSigma b i ≤ 134217728) (hm : m + 1 < n)
    (hw : 2 ≤ w / 2 ^ (m / b.steps)) (hh : 2 ≤ h / 2 ^ (m / b.steps)) (hsz : w * h ≤ 2147483647) {dest : I} (hd : C.Ok dest) :
    ∃ a d q, levelAt s.pyr m = .ok ⟨a, levelScale b m, levelSigma b m⟩ ∧
      smoothG ops (some dest) a (sigmaG s.current (levelSigma b (m + 1) * s.mult)) = .ok d ∧
      C.Is d (w / 2 ^ (m / b.steps)) (h / 2 ^ (m / b.steps)) q ∧
      C.blur (stepSigma b m / 2 ^ (m / b.steps)) (w / 2 ^ (m / b.steps)) (h / 2 ^ (m / b.steps)) (Pic m) q := by
  obtain ⟨a, ea, _, ha⟩ := hI.levels.at (i := m) (by omega)
  obtain ⟨m1, m2⟩ := half_pow (m / b.steps)
  have hlt := levelSigma_lt h0 hst (Nat.lt_succ_self m)
  have hp := levelSigma_pos h0 m
  have hs1 : 0 < s.mult := by rw [hI.mult]; exact m1
  have hlt' : levelSigma b m * s.mult < levelSigma b (m + 1) * s.mult := mul_lt_mul_of_pos_right hlt hs1
  have hp' : 0 ≤ levelSigma b m * s.mult := le_of_lt (mul_pos hp hs1)
  have e : sigmaG s.current (levelSigma b (m + 1) * s.mult) = some (stepSigma b m / 2 ^ (m / b.steps)) := by
    rw [hI.current, sigmaG_le hp' (le_of_lt hlt'), sqrt_diff_mul (le_of_lt hs1), hI.mult, one_div, inv_pow]
    rfl
  have pos : 0 < stepSigma b m / 2 ^ (m / b.steps) := div_pos (sqrt_diff_pos (le_of_lt hp) hlt) (pow_pos (by norm_num) _)
  have bound : stepSigma b m / 2 ^ (m / b.steps) ≤ 134217728 := by
    refine le_trans (div_le_self (Real.sqrt_nonneg _) (one_le_pow₀ (by norm_num))) ?_
    exact le_trans (sqrt_diff_le (le_of_lt hp) (le_of_lt hlt)) (hb (m + 1) hm)
  obtain ⟨d, q, g1, g2, g3⟩ := C.smooth_is (dest := some dest) (by intro d hd'; cases hd'; exact hd) (ha (Nat.le_refl m)) hw hh
    (area_le hsz) pos bound
  refine ⟨a, d, q, ea, ?_, g2, g3⟩
  rw [e]
  exact g1

/-- The pictures with a new one for level `m + 1`. -/
def addPic (Pic : Nat → P) (m : Nat) (q : P) (i : Nat) : P := if i ≤ m then Pic i else q

theorem FineInv.add {n w h : Nat} {p : P} {m : Nat} {s : FineState I} {Pic : Nat → P} (hI : FineInv C b n w h p m s Pic) (hm : m + 1 < n)
    {img : I} {q : P} (hi : C.Is img (w / 2 ^ ((m + 1) / b.steps)) (h / 2 ^ ((m + 1) / b.steps)) q) (hr : FineRel C b w h m (Pic m) q) :
    ∃ pyr', setImg s.pyr (m + 1) img = .ok pyr' ∧ ∀ s' : FineState I, s'.pyr = pyr' → C.Ok s'.work →
      s'.mult = (1 / 2) ^ ((m + 1) / b.steps) → s'.current = levelSigma b (m + 1) * s'.mult →
      FineInv C b n w h p (m + 1) s' (addPic Pic m q) := by
  obtain ⟨pyr', e4, hL'⟩ := hI.levels.set (Q' := fun i img => C.Ok img ∧ (i ≤ m + 1 → C.Is img (w / 2 ^ (i / b.steps))
    (h / 2 ^ (i / b.steps)) (addPic Pic m q i))) (i := m + 1) hm (img := img)
    ⟨C.is_ok hi, fun _ => by unfold addPic; rw [if_neg (by omega)]; exact hi⟩ (by
      intro j k _ hj hk
      refine ⟨hk.1, fun hle => ?_⟩
      unfold addPic
      rw [if_pos (by omega)]
      exact hk.2 (by omega))
  refine ⟨pyr', e4, ?_⟩
  intro s' e1 e2 e3 e5
  refine ⟨e2, by rw [e1]; exact hL', ?_, ?_, e3, e5⟩
  · unfold addPic
    rw [if_pos (Nat.zero_le m)]
    exact hI.first
  · intro i hi'
    unfold addPic
    by_cases hik : i = m
    · subst hik
      rw [if_pos (Nat.le_refl i), if_neg (by omega)]
      exact hr
    · rw [if_pos (by omega), if_pos (by omega)]
      exact hI.next i (by omega)

theorem div_succ_same {m st : Nat} (h : (m + 1) % st ≠ 0) : (m + 1) / st = m / st := by
  rw [Nat.succ_div, if_neg (by intro hd; exact h (Nat.mod_eq_zero_of_dvd hd)), Nat.add_zero]

theorem div_succ_next {m st : Nat} (h : (m + 1) % st = 0) : (m + 1) / st = m / st + 1 := by
  rw [Nat.succ_div, if_pos (Nat.dvd_of_mod_eq_zero h)]

theorem updateFine_ok {oct w h : Nat} {p : P} {pyr : List (PyrLevel I)} (hoct : 0 < oct) (hbo : b.octaves = oct) (hst : 0 < b.steps)
    (hwork : C.Ok b.work) (hL : Levels b (oct * b.steps) (fun i img => C.Ok img ∧ (i = 0 → C.Is img w h p)) pyr)
    (h0 : 1 / 2 ≤ b.sigma0) (hb : ∀ i, i < oct * b.steps → levelSigma b i ≤ 134217728)
    (hbig : ∀ o, o < oct → 2 ≤ w / 2 ^ o ∧ 2 ≤ h / 2 ^ o) (hsz : w * h ≤ 2147483647) :
    ∃ work pyr', ∃ Pic : Nat → P, updateFine ops b pyr = .ok (work, pyr') ∧ C.Ok work ∧ First C b.sigma0 w h p (Pic 0) ∧
      (∀ i, i + 1 < oct * b.steps → FineRel C b w h i (Pic i) (Pic (i + 1))) ∧
      Levels b (oct * b.steps) (fun i img => C.Is img (w / 2 ^ (i / b.steps)) (h / 2 ^ (i / b.steps)) (Pic i)) pyr' := by
  obtain ⟨n, hn⟩ : ∃ n, oct * b.steps = n := ⟨_, rfl⟩
  rw [hn] at hL hb ⊢
  have hn0 : 0 < n := by rw [← hn]; exact Nat.mul_pos hoct hst
  have hσ : 0 < b.sigma0 := by linarith
  obtain ⟨hw2, hh2⟩ := hbig 0 hoct
  rw [pow_zero, Nat.div_one] at hw2 hh2
  have hoct_of : ∀ m, m < n → m / b.steps < oct := by
    intro m hm
    rw [Nat.div_lt_iff_lt_mul hst, hn]
    exact hm
  obtain ⟨p1, q, e1, hF, hL1⟩ := smoothFirst_ok C hn0 hL h0 (by rw [← levelSigma_zero b]; exact hb 0 hn0) hw2 hh2 hsz
  have start : FineInv C b n w h p 0 ⟨b.work, p1, b.sigma0, 1⟩ (fun _ => q) := by
    refine ⟨hwork, hL1.weaken ?_, hF, by intro i hi; omega, by rw [Nat.zero_div, pow_zero], by rw [levelSigma_zero, mul_one]⟩
    intro i img _ hi
    refine ⟨hi.1, fun h0 => ?_⟩
    have h0 : i = 0 := by omega
    subst h0
    rw [Nat.zero_div, pow_zero, Nat.div_one, Nat.div_one]
    exact hi.2 rfl
  obtain ⟨s, e2, hs⟩ := forLoop_spec (n := oct) (i0 := 0) (s := ⟨b.work, p1, b.sigma0, 1⟩) (body := fineOctave ops oct b.steps)
    (fun o s => ∃ Pic, FineInv C b n w h p (if o = oct then n - 1 else o * b.steps) s Pic) (Nat.zero_le _)
    ⟨_, by rw [if_neg (by omega), Nat.zero_mul]; exact start⟩ (by
      rintro o s _ ho ⟨Pic, hI⟩
      rw [if_neg (by omega)] at hI
      have hle : (o + 1) * b.steps ≤ n := by rw [← hn]; exact Nat.mul_le_mul_right _ ho
      have hmul : (o + 1) * b.steps = o * b.steps + b.steps := Nat.succ_mul o b.steps
      obtain ⟨s1, e1, Pic1, hI1⟩ := forLoop_spec (n := b.steps - 1) (i0 := 0) (s := s) (body := fineStep ops (o * b.steps))
        (fun k s => ∃ Pic, FineInv C b n w h p (o * b.steps + k) s Pic) (Nat.zero_le _) ⟨Pic, hI⟩ (by
          rintro k s _ hk ⟨Pic, hI⟩
          have hm : o * b.steps + k + 1 < n := by omega
          obtain ⟨d, ed, hd, _⟩ := hI.levels.at (i := o * b.steps + k + 1) hm
          have ho' := hoct_of (o * b.steps + k) (by omega)
          obtain ⟨a, r, t, g1, g2, g3, g4⟩ := fine_smooth C hI hst hσ hb hm (hbig _ ho').1 (hbig _ ho').2 hsz hd
          have hmod : (o * b.steps + k + 1) % b.steps ≠ 0 := by
            rw [Nat.add_assoc, Nat.add_comm, Nat.add_mul_mod_self_right, Nat.mod_eq_of_lt (by omega)]
            omega
          have hdiv := div_succ_same hmod
          obtain ⟨pyr', e4, hall⟩ := hI.add C (img := r) (q := t) hm (by rw [hdiv]; exact g3) (by
            unfold FineRel
            rw [if_neg hmod]
            exact g4)
          refine ⟨{ s with pyr := pyr', current := levelSigma b (o * b.steps + k + 1) * s.mult }, ?_, _,
            hall _ rfl hI.work (by rw [hdiv]; exact hI.mult) rfl⟩
          unfold fineStep
          rw [show o * b.steps + (k + 1) = o * b.steps + k + 1 from rfl, ed, Res.ok_bind, g1, Res.ok_bind]
          simp only []
          rw [g2, Res.ok_bind, e4]
          rfl)
      unfold fineOctave
      rw [e1, Res.ok_bind]
      by_cases hlast : o + 1 = oct
      · refine ⟨s1, by rw [if_pos hlast]; rfl, Pic1, ?_⟩
        rw [if_pos hlast]
        have : n - 1 = o * b.steps + (b.steps - 1) := by rw [← hn, ← hlast, hmul]; omega
        rw [this]
        exact hI1
      · rw [if_neg hlast, if_neg hlast]
        have hlt : (o + 1) * b.steps < n := by
          rw [← hn]
          exact Nat.mul_lt_mul_of_pos_right (by omega) hst
        have hm : o * b.steps + (b.steps - 1) + 1 < n := by omega
        obtain ⟨m, hme⟩ : ∃ m, o * b.steps + (b.steps - 1) = m := ⟨_, rfl⟩
        have hm1 : m + 1 = (o + 1) * b.steps := by omega
        rw [hme] at hI1 hm ⊢
        obtain ⟨d, ed, hd, _⟩ := hI1.levels.at (i := m + 1) hm
        have ho' := hoct_of m (by omega)
        obtain ⟨a, wk, t, g1, g2, g3, g4⟩ := fine_smooth C hI1 hst hσ hb hm (hbig _ ho').1 (hbig _ ho').2 hsz hI1.work
        obtain ⟨r, t', g5, g6, g7⟩ := C.thin_is hd g3 (area_le hsz)
        have hmod : (m + 1) % b.steps = 0 := by rw [hm1, Nat.mul_mod_left]
        have hdiv := div_succ_next hmod
        rw [pow_div, pow_div] at g6
        obtain ⟨pyr', e4, hall⟩ := hI1.add C (img := r) (q := t') hm (by rw [hdiv]; exact g6) (by
          unfold FineRel
          rw [if_pos hmod]
          exact ⟨t, g4, g7⟩)
        rw [← hm1]
        refine ⟨⟨wk, pyr', levelSigma b (m + 1) * s1.mult * (1 / 2), s1.mult * (1 / 2)⟩, ?_, _,
          hall _ rfl (C.is_ok g3) (by rw [hdiv, pow_succ, hI1.mult]) (by rw [mul_assoc])⟩
        unfold fineNext
        rw [ed, Res.ok_bind, g1, Res.ok_bind]
        simp only []
        rw [g2, Res.ok_bind, g5, Res.ok_bind, e4]
        rfl)
  obtain ⟨Pic, hI⟩ := hs
  rw [if_pos rfl] at hI
  refine ⟨s.work, s.pyr, Pic, ?_, hI.work, hI.first, fun i hi => hI.next i (by omega), hI.levels.weaken (by
    intro i img hi hq
    exact hq.2 (by omega))⟩
  unfold updateFine
  rw [e1, Res.ok_bind, hbo, e2]
  rfl

/-! ## Scaled pyramids -/

/-- The levels of a scaled pyramid: `Acc i` is the given image smoothed to the sigma of level `i`. -/
structure ScaledPyr (b : PyrBuilder I) (w h : Nat) (p : P) (Acc Pic : Nat → P) (k : Nat) : Prop where
  first : First C b.sigma0 w h p (Acc 0)
  smooth : ∀ i, i + 1 ≤ k → C.blur (stepSigma b i) w h (Acc i) (Acc (i + 1))
  zero : Pic 0 = Acc 0
  scale : ∀ i, 0 < i → i ≤ k → C.shrink (1 / levelScale b i) w h (Acc i) (Pic i)

theorem updateScaled_ok {n w h : Nat} {p : P} {pyr : List (PyrLevel I)} (hn : 0 < n) (hwork : C.Ok b.work) (hst : b.steps = 1)
    (hf : 1 < b.factor)
    (hL : Levels b n (fun i img => C.Ok img ∧ (i = 0 → C.Is img w h p)) pyr) (h0 : 1 / 2 ≤ b.sigma0)
    (hb : ∀ i, i < n → levelSigma b i ≤ 134217728) (hw : 2 ≤ w) (hh : 2 ≤ h) (hsz : w * h ≤ 2147483647) :
    ∃ work pyr' Acc Pic, updateScaled ops b pyr = .ok (work, pyr') ∧ C.Ok work ∧ ScaledPyr C b w h p Acc Pic (n - 1) ∧
      Levels b n (fun i img => C.Is img (⌊(w : Rat) / levelScale b i⌋).toNat (⌊(h : Rat) / levelScale b i⌋).toNat (Pic i)) pyr' := by
  have hσ : 0 < b.sigma0 := by linarith
  obtain ⟨p1, q, e1, hF, hL1⟩ := smoothFirst_ok C hn hL h0 (by rw [← levelSigma_zero b]; exact hb 0 hn) hw hh hsz
  obtain ⟨img0, ei, _, hi0⟩ := hL1.at hn
  obtain ⟨c, ec, hc⟩ := C.copy_is hwork (hi0 rfl)
  obtain ⟨⟨work, p2, cur⟩, e2, Acc, Pic, hwk, hcur, hP, hL2⟩ := forLoop_spec (n := n - 1) (i0 := 0) (s := (c, p1, b.sigma0))
    (body := scaledBody ops)
    (fun k s => ∃ Acc Pic, C.Is s.1 w h (Acc k) ∧ s.2.2 = levelSigma b k ∧ ScaledPyr C b w h p Acc Pic k ∧
      Levels b n (fun i img => C.Ok img ∧ (i ≤ k → C.Is img (⌊(w : Rat) / levelScale b i⌋).toNat
        (⌊(h : Rat) / levelScale b i⌋).toNat (Pic i))) s.2.1) (Nat.zero_le _)
    ⟨fun _ => q, fun _ => q, hc, (levelSigma_zero b).symm, ⟨hF, by intro i hi; omega, rfl, by intro i h0 hi; omega⟩, hL1.weaken (by
      intro i img _ hi
      refine ⟨hi.1, fun h0 => ?_⟩
      have h0 : i = 0 := by omega
      subst h0
      rw [levelScale_zero, div_one, div_one, Int.floor_natCast, Int.floor_natCast, Int.toNat_natCast, Int.toNat_natCast]
      exact hi.2 rfl)⟩ (by
      rintro k ⟨work, pyr, cur⟩ _ hk ⟨Acc, Pic, hwk, hcur, hP, hL⟩
      simp only [] at hwk hcur hL
      obtain ⟨d, ed, hd, _⟩ := hL.at (i := k + 1) (by omega)
      have hp := levelSigma_pos hσ k
      have hlt := levelSigma_lt hσ (by omega : 0 < b.steps) (Nat.lt_succ_self k)
      obtain ⟨wk, t, g1, g2, g3⟩ := C.smooth_is (dest := none) (by intro d hd; cases hd) hwk hw hh hsz (sqrt_diff_pos (le_of_lt hp) hlt)
        (le_trans (sqrt_diff_le (le_of_lt hp) (le_of_lt hlt)) (hb (k + 1) (by omega)))
      have hsc : 1 < levelScale b (k + 1) := by
        unfold levelScale
        rw [hst, Nat.div_one]
        exact one_lt_pow₀ hf (by omega)
      obtain ⟨r, t', g4, g5, g6⟩ := C.shrink_is (c := 1 / levelScale b (k + 1)) hd g2 hw hh hsz (by positivity)
        (by rw [div_lt_one (by linarith)]; exact hsc)
      rw [mul_one_div, mul_one_div] at g5
      obtain ⟨pyr', e4, hL'⟩ := hL.set (Q' := fun i img => C.Ok img ∧ (i ≤ k + 1 → C.Is img (⌊(w : Rat) / levelScale b i⌋).toNat
        (⌊(h : Rat) / levelScale b i⌋).toNat (addPic Pic k t' i))) (i := k + 1) (by omega) (img := r)
        ⟨C.is_ok g5, fun _ => by unfold addPic; rw [if_neg (by omega)]; exact g5⟩ (by
          intro j m _ hj hm
          refine ⟨hm.1, fun hle => ?_⟩
          unfold addPic
          rw [if_pos (by omega)]
          exact hm.2 (by omega))
      refine ⟨(wk, pyr', levelSigma b (k + 1)), ?_, addPic Acc k t, addPic Pic k t', ?_, rfl, ⟨?_, ?_, ?_, ?_⟩, hL'⟩
      · unfold scaledBody
        simp only []
        rw [ed, Res.ok_bind]
        simp only []
        rw [hcur, sigmaG_le (le_of_lt hp) (le_of_lt hlt)]
        show (ops.smooth none work (Real.sqrt (levelSigma b (k + 1) ^ 2 - levelSigma b k ^ 2)) >>= _) = _
        rw [g1, Res.ok_bind, g4, Res.ok_bind, e4]
        rfl
      · unfold addPic
        rw [if_neg (by omega)]
        exact g2
      · unfold addPic
        rw [if_pos (Nat.zero_le k)]
        exact hP.first
      · intro i hi
        unfold addPic
        by_cases hik : i = k
        · subst hik
          rw [if_pos (Nat.le_refl i), if_neg (by omega)]
          exact g3
        · rw [if_pos (by omega), if_pos (by omega)]
          exact hP.smooth i (by omega)
      · unfold addPic
        rw [if_pos (Nat.zero_le k), if_pos (Nat.zero_le k)]
        exact hP.zero
      · intro i hi0 hi
        unfold addPic
        by_cases hik : i = k + 1
        · subst hik
          rw [if_neg (by omega), if_neg (by omega)]
          exact g6
        · rw [if_pos (by omega), if_pos (by omega)]
          exact hP.scale i hi0 (by omega))
  refine ⟨work, p2, Acc, Pic, ?_, C.is_ok hwk, hP, hL2.weaken (by intro i img hi hq; exact hq.2 (by omega))⟩
  unfold updateScaled
  rw [e1, Res.ok_bind]
  simp only []
  rw [ei, Res.ok_bind]
  simp only []
  rw [ec, Res.ok_bind, hL1.len, e2]
  rfl

end

end Nx
