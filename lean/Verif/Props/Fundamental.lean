import Verif.Lemmas.Epipolar
import Verif.Lemmas.Svd
import Verif.Props.MatchStats
import Verif.Props.Dlt

/-!
# C66: the fundamental matrix
-/

namespace Nx

/-- `nx_fundamental_epipolar_distance_fwd` is the distance of the second point from the epipolar line of the first: some point
of the line has this distance from it and none has a smaller one. -/
theorem c66_distance (F : M3 ℝ) (c : PMatch ℝ) (d : ℝ) (h : epipolarDistance Real.sqrt F c = some d) :
    (∃ q, epiForm F.mat c.x q = 0 ∧ Real.sqrt ((q.1 - c.xp.1) ^ 2 + (q.2 - c.xp.2) ^ 2) = d) ∧
      ∀ q, epiForm F.mat c.x q = 0 → d ≤ Real.sqrt ((q.1 - c.xp.1) ^ 2 + (q.2 - c.xp.2) ^ 2) := by
  have hform : ∀ q : ℝ × ℝ, epiForm F.mat c.x q
      = (epipolarLine F c.x).e0 * q.1 + (epipolarLine F c.x).e1 * q.2 + (epipolarLine F c.x).e2 := by
    intro q
    simp [epiForm, hom2, M3.mat, epipolarLine, Matrix.mulVec, dotProduct, Fin.sum_univ_succ]
    ring
  simp only [hform]
  simp only [epipolarDistance] at h
  generalize (epipolarLine F c.x).e0 = a at *
  generalize (epipolarLine F c.x).e1 = b at *
  generalize (epipolarLine F c.x).e2 = l at *
  generalize c.xp.1 = x at *
  generalize c.xp.2 = y at *
  have hn0 : 0 ≤ a * a + b * b := add_nonneg (mul_self_nonneg _) (mul_self_nonneg _)
  split at h
  · simp at h
  rename_i hn
  have hs : 0 < Real.sqrt (a * a + b * b) := lt_of_le_of_ne (Real.sqrt_nonneg _) (Ne.symm hn)
  have hss : Real.sqrt (a * a + b * b) * Real.sqrt (a * a + b * b) = a * a + b * b := Real.mul_self_sqrt hn0
  rw [Option.some.injEq] at h
  have hd : d = |(a * x + b * y + l) / Real.sqrt (a * a + b * b)| := by rw [← h]; rfl
  have hdd : d ^ 2 = (a * x + b * y + l) ^ 2 / (a * a + b * b) := by
    rw [hd, sq_abs, div_pow, sq (Real.sqrt _), hss]
  have hpos : 0 < a * a + b * b := by rw [← hss]; exact mul_pos hs hs
  have hd0 : 0 ≤ d := by rw [hd]; exact abs_nonneg _
  constructor
  · refine ⟨(x - a * ((a * x + b * y + l) / (a * a + b * b)), y - b * ((a * x + b * y + l) / (a * a + b * b))), ?_, ?_⟩
    · show a * (x - a * ((a * x + b * y + l) / (a * a + b * b))) + b * (y - b * ((a * x + b * y + l) / (a * a + b * b))) + l
        = 0
      have : (a * x + b * y + l) / (a * a + b * b) * (a * a + b * b) = a * x + b * y + l := div_mul_cancel₀ _ hpos.ne'
      linear_combination -this
    · rw [← Real.sqrt_sq hd0, hdd]
      congr 1
      show (x - a * ((a * x + b * y + l) / (a * a + b * b)) - x) ^ 2
        + (y - b * ((a * x + b * y + l) / (a * a + b * b)) - y) ^ 2 = (a * x + b * y + l) ^ 2 / (a * a + b * b)
      generalize a * x + b * y + l = v
      rw [show (x - a * (v / (a * a + b * b)) - x) ^ 2 + (y - b * (v / (a * a + b * b)) - y) ^ 2
        = (a * a + b * b) * (v / (a * a + b * b)) ^ 2 by ring]
      generalize a * a + b * b = N at hpos
      field_simp
  · intro q hq
    rw [← Real.sqrt_sq hd0, hdd]
    apply Real.sqrt_le_sqrt
    rw [div_le_iff₀ hpos]
    have e : a * x + b * y + l = a * (x - q.1) + b * (y - q.2) := by linarith
    rw [e]
    nlinarith [sq_nonneg (a * (y - q.2) - b * (x - q.1))]

/-- There is no distance iff the epipolar line is not a line of the plane. -/
theorem c66_distance_none (F : M3 ℝ) (c : PMatch ℝ) :
    epipolarDistance Real.sqrt F c = none ↔ F.mat.mulVec (hom2 c.x) 0 = 0 ∧ F.mat.mulVec (hom2 c.x) 1 = 0 := by
  have e0 : F.mat.mulVec (hom2 c.x) 0 = (epipolarLine F c.x).e0 := by
    simp [hom2, M3.mat, epipolarLine, Matrix.mulVec, dotProduct, Fin.sum_univ_succ]
    ring
  have e1 : F.mat.mulVec (hom2 c.x) 1 = (epipolarLine F c.x).e1 := by
    simp [hom2, M3.mat, epipolarLine, Matrix.mulVec, dotProduct, Fin.sum_univ_succ]
    ring
  rw [e0, e1]
  simp only [epipolarDistance, ite_eq_left_iff, reduceCtorEq, imp_false, not_not]
  rw [Real.sqrt_eq_zero (add_nonneg (mul_self_nonneg _) (mul_self_nonneg _))]
  constructor
  · intro h
    have h0 := mul_self_nonneg (epipolarLine F c.x).e0
    have h1 := mul_self_nonneg (epipolarLine F c.x).e1
    exact ⟨mul_self_eq_zero.mp (by linarith), mul_self_eq_zero.mp (by linarith)⟩
  · rintro ⟨h0, h1⟩
    rw [h0, h1]
    ring

/-- Specification of an inlier: some point of the epipolar line, which is a line of the plane, is less than `tol` away. -/
def EpiWithin (F : Matrix (Fin 3) (Fin 3) ℝ) (p q : ℝ × ℝ) (tol : ℝ) : Prop :=
  ¬ (F.mulVec (hom2 p) 0 = 0 ∧ F.mulVec (hom2 p) 1 = 0) ∧
    ∃ r : ℝ × ℝ, epiForm F p r = 0 ∧ Real.sqrt ((r.1 - q.1) ^ 2 + (r.2 - q.2) ^ 2) < tol

theorem lessThan_iff (F : M3 ℝ) (c : PMatch ℝ) (tol : ℝ) :
    lessThan (epipolarDistance Real.sqrt F c) tol = true ↔ EpiWithin F.mat c.x c.xp tol := by
  cases h : epipolarDistance Real.sqrt F c with
  | none =>
    have := (c66_distance_none F c).mp h
    simp only [lessThan, EpiWithin, this]
    simp
  | some d =>
    obtain ⟨⟨q, hq, hqd⟩, hmin⟩ := c66_distance F c d h
    simp only [lessThan, decide_eq_true_eq]
    have hnn : ¬ (F.mat.mulVec (hom2 c.x) 0 = 0 ∧ F.mat.mulVec (hom2 c.x) 1 = 0) := by
      intro hz
      rw [(c66_distance_none F c).mpr hz] at h
      cases h
    constructor
    · intro hd
      exact ⟨hnn, q, hq, by rw [hqd]; exact hd⟩
    · rintro ⟨_, r, hr, hlt⟩
      exact lt_of_le_of_lt (hmin r hr) hlt

/-- `nx_fundamental_mark_inliers` changes nothing but the inlier marks of the first `n` correspondences; it marks those
that are less than the tolerance away from their epipolar line and returns their number. -/
theorem c66_mark (F : M3 ℝ) (n : Nat) (corr : List (PMatch ℝ)) (tol : ℝ) (hn : n ≤ corr.length) :
    ∃ corr' k, fundMarkInliers Real.sqrt F n corr tol = .ok (corr', k) ∧ corr'.length = corr.length ∧
      k = ((corr'.take n).filter fun c => c.inlier).length ∧
      ∀ i c, corr[i]? = some c → ∃ b : Bool, corr'[i]? = some { c with inlier := b } ∧
        (i < n → (b = true ↔ EpiWithin F.mat c.x c.xp tol)) ∧ (n ≤ i → b = c.inlier) := by
  rw [fundMarkInliers, Int.toNat_natCast]
  exact markLoop_spec _ (fun c => EpiWithin F.mat c.x c.xp tol) (fun c => lessThan_iff F c tol) n corr hn

/-- `nx_fundamental_fix_rank` yields the singular matrix nearest to `F`, and returns its distance. -/
theorem c66_rank (svd3 : M3 ℝ → M3 ℝ × V3 ℝ × M3 ℝ) (F : M3 ℝ)
    (hs : IsSvd3 F.mat (svd3 F).1.mat (svd3 F).2.2.mat (svd3 F).2.1.vec) :
    (fixRank svd3 F).1.mat.det = 0 ∧ frobSq (F.mat - (fixRank svd3 F).1.mat) = (fixRank svd3 F).2 ^ 2 ∧
      0 ≤ (fixRank svd3 F).2 ∧
      ∀ A : Matrix (Fin 3) (Fin 3) ℝ, A.det = 0 → frobSq (F.mat - (fixRank svd3 F).1.mat) ≤ frobSq (F.mat - A) := by
  obtain ⟨hU, hV, h2, h21, h10, hF⟩ := hs
  have hU' := mul_eq_one_comm.mp hU
  have hV' := mul_eq_one_comm.mp hV
  have hm : (fixRank svd3 F).1.mat = (svd3 F).1.mat
      * (Matrix.diagonal ![(svd3 F).2.1.e0, (svd3 F).2.1.e1, 0] * (svd3 F).2.2.mat) := by
    simp only [fixRank]
    rw [c57_mul]
    congr 1
    ext i j
    fin_cases i <;> fin_cases j <;> simp [M3.mat, Matrix.mul_apply, Matrix.diagonal_apply, mul_comm]
  have hr : (fixRank svd3 F).2 = (svd3 F).2.1.e2 := rfl
  have hdiff : F.mat - (fixRank svd3 F).1.mat
      = (svd3 F).1.mat * Matrix.diagonal ![0, 0, (svd3 F).2.1.e2] * (svd3 F).2.2.mat := by
    rw [hm, ← hF, ← Matrix.mul_assoc, ← Matrix.sub_mul, ← Matrix.mul_sub]
    congr 2
    ext i j
    fin_cases i <;> fin_cases j <;> simp [V3.vec]
  have hfrob : frobSq (F.mat - (fixRank svd3 F).1.mat) = (fixRank svd3 F).2 ^ 2 := by
    rw [hdiff, frobSq_orth hU' hV, hr]
    simp [frobSq, Fin.sum_univ_three, Matrix.diagonal_apply]
  refine ⟨?_, hfrob, h2, ?_⟩
  · rw [hm, Matrix.det_mul, Matrix.det_mul, Matrix.det_diagonal]
    simp [Fin.prod_univ_three]
  · intro A hA
    rw [hfrob, hr]
    obtain ⟨v, hv, hAv⟩ := Matrix.exists_mulVec_eq_zero_iff.mpr hA
    have hvp := dot_pos hv
    have e1 : (F.mat - A).mulVec v = F.mat.mulVec v := by rw [Matrix.sub_mulVec, hAv, sub_zero]
    have h3 := mulVec_le_frob (F.mat - A) v
    have e2 : F.mat.mulVec v
        = (svd3 F).1.mat.mulVec ((Matrix.diagonal (svd3 F).2.1.vec).mulVec ((svd3 F).2.2.mat.mulVec v)) := by
      rw [Matrix.mulVec_mulVec, Matrix.mulVec_mulVec, hF]
    rw [e1, e2, dot_orth hU'] at h3
    have h4 := dot_orth hV' v
    generalize (svd3 F).2.2.mat.mulVec v = w at h3 h4
    have h5 : (svd3 F).2.1.e2 ^ 2 * dotProduct w w
        ≤ dotProduct ((Matrix.diagonal (svd3 F).2.1.vec).mulVec w) ((Matrix.diagonal (svd3 F).2.1.vec).mulVec w) := by
      simp only [Matrix.mulVec_diagonal, dotProduct, Fin.sum_univ_three]
      have a1 : (svd3 F).2.1.e2 ^ 2 ≤ (svd3 F).2.1.vec 1 ^ 2 := pow_le_pow_left₀ h2 h21 2
      have a0 : (svd3 F).2.1.e2 ^ 2 ≤ (svd3 F).2.1.vec 0 ^ 2 := pow_le_pow_left₀ h2 (h21.trans h10) 2
      have e2 : (svd3 F).2.1.vec 2 = (svd3 F).2.1.e2 := rfl
      have b0 := mul_le_mul_of_nonneg_right a0 (mul_self_nonneg (w 0))
      have b1 := mul_le_mul_of_nonneg_right a1 (mul_self_nonneg (w 1))
      rw [e2]
      nlinarith
    rw [h4] at h5
    exact le_of_mul_le_mul_right (h5.trans h3) hvp

variable {svd : List (Fin 9 → ℝ) → (Fin 9 → Fin 9 → ℝ) × List ℝ} {svd3 : M3 ℝ → M3 ℝ × V3 ℝ × M3 ℝ}

theorem fundEstimate_eq (F : M3 ℝ) (corr : List (PMatch ℝ)) (hn : 8 ≤ corr.length) :
    fundEstimate svd svd3 F corr.length corr
      = .ok ((fixRank svd3 (mat9 ((svd (corr.map fundConstraint)).1 8))).1,
        readSVal (svd (corr.map fundConstraint)).2 8) := by
  simp only [fundEstimate]
  rw [if_neg (by omega), Int.toNat_natCast, fundRows_ok _ _ le_rfl, List.take_length]
  rfl

/-- For eight or more correspondences `nx_fundamental_estimate` computes the singular matrix nearest to a matrix of norm one that
minimises the sum of the squared epipolar forms over all matrices of norm one. -/
theorem c66_estimate (hs : SvdContract svd) (hs3 : Svd3Contract svd3) (F : M3 ℝ) (corr : List (PMatch ℝ))
    (hn : 8 ≤ corr.length) :
    ∃ (F' : M3 ℝ) (s : SVal ℝ) (F0 : Matrix (Fin 3) (Fin 3) ℝ), fundEstimate svd svd3 F corr.length corr = .ok (F', s) ∧
      frobSq F0 = 1 ∧ (∀ A : Matrix (Fin 3) (Fin 3) ℝ, frobSq A = 1 → epiError F0 corr ≤ epiError A corr) ∧
      F'.mat.det = 0 ∧
      ∀ A : Matrix (Fin 3) (Fin 3) ℝ, A.det = 0 → frobSq (F0 - F'.mat) ≤ frobSq (F0 - A) := by
  obtain ⟨_, hu, hm⟩ := hs (corr.map fundConstraint)
  obtain ⟨hr1, -, -, hr2⟩ := c66_rank svd3 (mat9 ((svd (corr.map fundConstraint)).1 8)) (hs3 _)
  refine ⟨_, _, (mat9 ((svd (corr.map fundConstraint)).1 8)).mat, fundEstimate_eq F corr hn, ?_, ?_, hr1, hr2⟩
  · rw [← vec9_sq, vec9_mat9, hu]
  · intro A hA
    rw [← fundRows_error, ← fundRows_error, vec9_mat9]
    exact hm (vec9 A) (by rw [vec9_sq, hA])

theorem epiError_zero (A : Matrix (Fin 3) (Fin 3) ℝ) (corr : List (PMatch ℝ)) :
    epiError A corr = 0 ↔ ∀ c ∈ corr, epiForm A c.x c.xp = 0 := by
  rw [epiError, (sum_map_eq_zero corr (fun c => epiForm A c.x c.xp ^ 2) fun c => sq_nonneg _).2]
  simp

/-- If the correspondences satisfy the epipolar constraint of a singular matrix exactly, and those of no other matrix but its multiples,
that matrix is found, up to a factor. -/
theorem c66_exact (hs : SvdContract svd) (hs3 : Svd3Contract svd3) (F : M3 ℝ) (corr : List (PMatch ℝ))
    (hn : 8 ≤ corr.length) (B : Matrix (Fin 3) (Fin 3) ℝ) (hB0 : B ≠ 0) (hd : B.det = 0)
    (hB : ∀ c ∈ corr, epiForm B c.x c.xp = 0)
    (hu : ∀ A : Matrix (Fin 3) (Fin 3) ℝ, (∀ c ∈ corr, epiForm A c.x c.xp = 0) → ∃ k : ℝ, A = k • B) :
    ∃ (F' : M3 ℝ) (s : SVal ℝ) (k : ℝ), fundEstimate svd svd3 F corr.length corr = .ok (F', s) ∧ k ≠ 0 ∧ F'.mat = k • B := by
  obtain ⟨F', s, F0, he, hf, hmin, _, hnear⟩ := c66_estimate hs hs3 F corr hn
  have hpos := frobSq_pos hB0
  have hunit : frobSq ((Real.sqrt (frobSq B))⁻¹ • B) = 1 := by
    rw [frobSq_smul, inv_pow, Real.sq_sqrt hpos.le, inv_mul_cancel₀ hpos.ne']
  have hzero : epiError ((Real.sqrt (frobSq B))⁻¹ • B) corr = 0 := by
    rw [epiError_zero]
    intro c hc
    rw [epiForm_smul, hB c hc, mul_zero]
  have h0 : epiError F0 corr = 0 := by
    have h1 := hmin _ hunit
    have h2 := (sum_map_eq_zero corr (fun c => epiForm F0 c.x c.xp ^ 2) fun c => sq_nonneg _).1
    rw [hzero] at h1
    exact le_antisymm h1 h2
  obtain ⟨k, hk⟩ := hu F0 ((epiError_zero F0 corr).mp h0)
  have hdet : F0.det = 0 := by rw [hk, Matrix.det_smul, hd, mul_zero]
  have hF : F'.mat = F0 := by
    have h1 := hnear F0 hdet
    have h2 : frobSq (F0 - F0) = 0 := by simp [frobSq]
    rw [h2] at h1
    by_contra hne
    have := frobSq_pos (sub_ne_zero.mpr (Ne.symm hne))
    linarith
  refine ⟨F', s, k, he, ?_, by rw [hF, hk]⟩
  rintro rfl
  rw [zero_smul] at hk
  rw [hk] at hf
  simp [frobSq] at hf

/-- The returned value is a singular value if there are nine or more correspondences; with eight it is read from an
uninitialised element. With less nothing is computed. -/
theorem c66_value (hs : SvdContract svd) (F F' : M3 ℝ) (s : SVal ℝ) (corr : List (PMatch ℝ))
    (hr : fundEstimate svd svd3 F corr.length corr = .ok (F', s)) :
    (9 ≤ corr.length → ∃ v ∈ (svd (corr.map fundConstraint)).2, s = .val v) ∧
      (corr.length = 8 → s = .indet) ∧ (corr.length < 8 → F' = F ∧ s = .dblMax) := by
  obtain ⟨hl, _, _⟩ := hs (corr.map fundConstraint)
  rw [List.length_map] at hl
  refine ⟨?_, ?_, ?_⟩
  · intro hn
    have h8 : 8 < (svd (corr.map fundConstraint)).2.length := by omega
    rw [fundEstimate_eq F corr (by omega)] at hr
    simp only [Res.ok.injEq, Prod.mk.injEq, readSVal, List.getElem?_eq_getElem h8] at hr
    exact ⟨_, List.getElem_mem h8, hr.2.symm⟩
  · intro hn
    have h8 : (svd (corr.map fundConstraint)).2[8]? = none := List.getElem?_eq_none (by omega)
    rw [fundEstimate_eq F corr (by omega)] at hr
    simp only [Res.ok.injEq, Prod.mk.injEq, readSVal, h8] at hr
    exact hr.2.symm
  · intro hn
    simp only [fundEstimate] at hr
    rw [if_pos (by omega)] at hr
    simp only [Res.ok.injEq, Prod.mk.injEq] at hr
    exact ⟨hr.1.symm, hr.2.symm⟩

/-- `nx_fundamental_estimate_inliers` is the estimation from the correspondences that are marked as inliers. -/
theorem c66_inliers (F : M3 ℝ) (n : Nat) (corr : List (PMatch ℝ)) (hn : n ≤ corr.length) :
    fundEstimateInliers svd svd3 F n corr
      = fundEstimate svd svd3 F ((corr.take n).filter fun c => c.inlier).length
        ((corr.take n).filter fun c => c.inlier) := by
  simp only [fundEstimateInliers, fundEstimate, Int.toNat_natCast, countInliers_ok n corr 0 hn, Res.ok_bind, zero_add,
    fundInlierRows_ok n corr hn, fundRows_ok _ _ (le_refl ((corr.take n).filter fun c => c.inlier).length),
    List.take_length]
  by_cases h4 : ((corr.take n).filter fun c => c.inlier).length < 8
  · rw [if_pos h4, if_pos (by omega)]
  · rw [if_neg h4, if_neg (by omega)]

theorem fundRowsAt_ok (corr : List (PMatch ℝ)) : ∀ (ids : List Int) (cs : List (PMatch ℝ)), cs.length = ids.length →
    (∀ (k : Nat) (i : Int) (c : PMatch ℝ), ids[k]? = some i → cs[k]? = some c → readI corr i = .ok c) →
    fundRowsAt corr ids = .ok (cs.map fundConstraint)
  | [], cs, hl, _ => by
    rw [List.length_nil, List.length_eq_zero_iff] at hl
    rw [hl]
    rfl
  | i :: is, [], hl, _ => by simp at hl
  | i :: is, c :: cs, hl, h => by
    simp only [fundRowsAt]
    rw [h 0 i c rfl rfl, fundRowsAt_ok corr is cs (by simpa using hl) fun k j d h1 h2 => h (k + 1) j d (by simpa using h1)
      (by simpa using h2)]
    rfl

/-- `nx_fundamental_estimate_8pt` is the estimation from the eight chosen correspondences. -/
theorem c66_8pt (F : M3 ℝ) (ids : List Int) (corr cs : List (PMatch ℝ)) (h8 : ids.length = 8) (hl : cs.length = 8)
    (h : ∀ (k : Nat) (i : Int) (c : PMatch ℝ), ids[k]? = some i → cs[k]? = some c → readI corr i = .ok c) :
    fundEstimate8pt svd svd3 ids corr = fundEstimate svd svd3 F cs.length cs := by
  rw [fundEstimate8pt, fundRowsAt_ok corr ids cs (by omega) h, fundEstimate_eq F cs (by omega)]
  rfl

/-- The contracts of the decompositions can be met; for that of nine rows see the properties of the direct linear
transformation. -/
example : ∃ svd3, Svd3Contract svd3 := exists_svd3_contract

/-- Eight matches of a camera that moves along the first axis. -/
def stereo8 : List (PMatch ℝ) :=
  [(0, 0, 0), (1, 0, 0), (0, 1, 0), (1, 1, 0), (0, 0, 1), (0, 0, 2), (1, 0, 1), (0, 1, 1)].map
    fun (x, xp, y) => ⟨(x, y), (xp, y), 0, 1, 1, 0, 0, false⟩

/-- They meet the hypotheses of the exact case. -/
example :
    let B : Matrix (Fin 3) (Fin 3) ℝ := crossMat ![1, 0, 0]
    8 ≤ stereo8.length ∧ B ≠ 0 ∧ B.det = 0 ∧ (∀ c ∈ stereo8, epiForm B c.x c.xp = 0) ∧
      ∀ A : Matrix (Fin 3) (Fin 3) ℝ, (∀ c ∈ stereo8, epiForm A c.x c.xp = 0) → ∃ k : ℝ, A = k • B := by
  refine ⟨by simp [stereo8], ?_, ?_, ?_, ?_⟩
  · intro h
    have := congrFun (congrFun h 2) 1
    simp [crossMat] at this
  · simp [crossMat, Matrix.det_fin_three]
  · simp [stereo8, crossMat, epiForm, hom2, Matrix.mulVec, dotProduct, Fin.sum_univ_succ]
  · intro A h
    simp [stereo8, epiForm, hom2, Matrix.mulVec, dotProduct, Fin.sum_univ_succ] at h
    obtain ⟨h0, h1, h2, h3, h4, h5, h6, h7⟩ := h
    refine ⟨A 2 1, ?_⟩
    ext i j
    fin_cases i <;> fin_cases j <;> simp [crossMat] <;> linarith

end Nx
