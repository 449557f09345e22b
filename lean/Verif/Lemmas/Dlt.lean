import Mathlib.Tactic.NormNum
import Mathlib.Tactic.Positivity
import Mathlib.Tactic.Linarith
import Verif.Lemmas.Homography
import Verif.Spec.Homography

/-!
# Lemmas on the direct linear transformation
-/

namespace Nx

/-- The entries of a matrix by rows. -/
def vec9 (A : Matrix (Fin 3) (Fin 3) ℝ) : Fin 9 → ℝ :=
  ![A 0 0, A 0 1, A 0 2, A 1 0, A 1 1, A 1 2, A 2 0, A 2 1, A 2 2]

/-- The matrix whose entries by rows are given. -/
def mat9 (u : Fin 9 → ℝ) : M3 ℝ := ⟨u 0, u 3, u 6, u 1, u 4, u 7, u 2, u 5, u 8⟩

theorem vec9_mat9 (u : Fin 9 → ℝ) : vec9 (mat9 u).mat = u := by
  funext i
  fin_cases i <;> rfl

theorem vec9_sq (A : Matrix (Fin 3) (Fin 3) ℝ) : ∑ k, vec9 A k ^ 2 = frobSq A := by
  simp [vec9, frobSq, Fin.sum_univ_succ]
  ring

theorem rows_residual (A : Matrix (Fin 3) (Fin 3) ℝ) (c : PMatch ℝ) :
    ((constraintsFromCorr c).map fun r => (∑ k, r k * vec9 A k) ^ 2).sum = algResidual A c.x c.xp := by
  simp [constraintsFromCorr, vec9, algResidual, hom2, Matrix.mulVec, dotProduct, Fin.sum_univ_succ]
  ring

theorem dltRows_ok : ∀ (n : Nat) (corr : List (PMatch ℝ)), n ≤ corr.length →
    dltRows n corr = .ok ((corr.take n).flatMap constraintsFromCorr)
  | 0, corr, _ => by simp [dltRows]
  | n + 1, [], h => by simp at h
  | n + 1, c :: cs, h => by
    simp only [dltRows]
    rw [dltRows_ok n cs (by simpa using h)]
    simp

theorem rows_error (A : Matrix (Fin 3) (Fin 3) ℝ) : ∀ corr : List (PMatch ℝ),
    ((corr.flatMap constraintsFromCorr).map fun r => (∑ k, r k * vec9 A k) ^ 2).sum = algError A corr
  | [] => by simp [algError]
  | c :: cs => by
    rw [List.flatMap_cons, List.map_append, List.sum_append, rows_residual, rows_error A cs]
    simp [algError]

theorem rows_length : ∀ corr : List (PMatch ℝ), (corr.flatMap constraintsFromCorr).length = 2 * corr.length
  | [] => rfl
  | c :: cs => by
    rw [List.flatMap_cons, List.length_append, rows_length cs]
    simp [constraintsFromCorr]
    omega

theorem algResidual_nonneg (A : Matrix (Fin 3) (Fin 3) ℝ) (p q : ℝ × ℝ) : 0 ≤ algResidual A p q := by
  unfold algResidual
  positivity

theorem algError_nonneg (A : Matrix (Fin 3) (Fin 3) ℝ) : ∀ corr : List (PMatch ℝ), 0 ≤ algError A corr
  | [] => by simp [algError]
  | c :: cs => by
    have h1 := algResidual_nonneg A c.x c.xp
    have h2 := algError_nonneg A cs
    simp only [algError, List.map_cons, List.sum_cons] at *
    linarith

theorem algError_zero (A : Matrix (Fin 3) (Fin 3) ℝ) : ∀ corr : List (PMatch ℝ), algError A corr = 0 →
    ∀ c ∈ corr, algResidual A c.x c.xp = 0
  | [], _ => by simp
  | c :: cs, h => by
    have h1 := algResidual_nonneg A c.x c.xp
    have h2 := algError_nonneg A cs
    have h3 : algResidual A c.x c.xp + algError A cs = 0 := by simpa [algError] using h
    intro d hd
    rcases List.mem_cons.mp hd with rfl | hd
    · linarith
    · exact algError_zero A cs (by linarith) d hd

theorem residual_zero_iff (A : Matrix (Fin 3) (Fin 3) ℝ) (p q : ℝ × ℝ) :
    algResidual A p q = 0 ↔ ∃ s : ℝ, A.mulVec (hom2 p) = s • hom2 q := by
  constructor
  · intro h
    unfold algResidual at h
    have h1 : q.2 * A.mulVec (hom2 p) 2 - A.mulVec (hom2 p) 1 = 0 := by
      have := sq_nonneg (A.mulVec (hom2 p) 0 - q.1 * A.mulVec (hom2 p) 2)
      have := sq_nonneg (q.2 * A.mulVec (hom2 p) 2 - A.mulVec (hom2 p) 1)
      exact pow_eq_zero_iff (two_ne_zero) |>.mp (by linarith)
    have h2 : A.mulVec (hom2 p) 0 - q.1 * A.mulVec (hom2 p) 2 = 0 := by
      have := sq_nonneg (A.mulVec (hom2 p) 0 - q.1 * A.mulVec (hom2 p) 2)
      have := sq_nonneg (q.2 * A.mulVec (hom2 p) 2 - A.mulVec (hom2 p) 1)
      exact pow_eq_zero_iff (two_ne_zero) |>.mp (by linarith)
    refine ⟨A.mulVec (hom2 p) 2, ?_⟩
    rw [smul_hom2]
    funext i
    fin_cases i
    · show A.mulVec (hom2 p) 0 = A.mulVec (hom2 p) 2 * q.1
      linarith
    · show A.mulVec (hom2 p) 1 = A.mulVec (hom2 p) 2 * q.2
      linarith
    · rfl
  · rintro ⟨s, hs⟩
    unfold algResidual
    rw [hs, smul_hom2]
    simp
    ring

theorem frobSq_smul (k : ℝ) (A : Matrix (Fin 3) (Fin 3) ℝ) : frobSq (k • A) = k ^ 2 * frobSq A := by
  simp [frobSq, Fin.sum_univ_succ]
  ring

theorem frobSq_pos {A : Matrix (Fin 3) (Fin 3) ℝ} (h : A ≠ 0) : 0 < frobSq A := by
  have h0 : 0 ≤ frobSq A := Finset.sum_nonneg fun i _ => Finset.sum_nonneg fun j _ => sq_nonneg _
  rcases h0.lt_or_eq with h1 | h1
  · exact h1
  · exfalso
    apply h
    ext i j
    have h2 := (Finset.sum_eq_zero_iff_of_nonneg
      (fun i _ => Finset.sum_nonneg fun j _ => sq_nonneg (A i j))).mp h1.symm i (Finset.mem_univ _)
    have h3 := (Finset.sum_eq_zero_iff_of_nonneg (fun j _ => sq_nonneg (A i j))).mp h2 j (Finset.mem_univ _)
    exact pow_eq_zero_iff (two_ne_zero) |>.mp h3

theorem algResidual_smul (k : ℝ) (A : Matrix (Fin 3) (Fin 3) ℝ) (p q : ℝ × ℝ) :
    algResidual (k • A) p q = k ^ 2 * algResidual A p q := by
  simp only [algResidual, Matrix.smul_mulVec, Pi.smul_apply, smul_eq_mul]
  ring

theorem algError_smul (k : ℝ) (A : Matrix (Fin 3) (Fin 3) ℝ) : ∀ corr : List (PMatch ℝ),
    algError (k • A) corr = k ^ 2 * algError A corr
  | [] => by simp [algError]
  | c :: cs => by
    have := algError_smul k A cs
    simp only [algError, List.map_cons, List.sum_cons] at *
    rw [this, algResidual_smul]
    ring

theorem algError_eq_zero_of (A : Matrix (Fin 3) (Fin 3) ℝ) : ∀ corr : List (PMatch ℝ),
    (∀ c ∈ corr, algResidual A c.x c.xp = 0) → algError A corr = 0
  | [], _ => by simp [algError]
  | c :: cs, h => by
    have h1 := algError_eq_zero_of A cs fun d hd => h d (List.mem_cons_of_mem _ hd)
    simp only [algError, List.map_cons, List.sum_cons] at *
    rw [h1, h c (List.mem_cons_self ..), add_zero]

theorem countInliers_ok {K : Type} : ∀ (n : Nat) (corr : List (PMatch K)) (acc : Nat), n ≤ corr.length →
    countInliers n corr acc = .ok (acc + ((corr.take n).filter PMatch.inlier).length)
  | 0, corr, acc, _ => by simp [countInliers]
  | n + 1, [], _, h => by simp at h
  | n + 1, c :: cs, acc, h => by
    simp only [countInliers]
    rw [countInliers_ok n cs _ (by simpa using h), List.take_succ_cons, List.filter_cons]
    split <;> (simp; try omega)

theorem dltInlierRows_ok : ∀ (n : Nat) (corr : List (PMatch ℝ)), n ≤ corr.length →
    dltInlierRows n corr = .ok (((corr.take n).filter PMatch.inlier).flatMap constraintsFromCorr)
  | 0, corr, _ => by simp [dltInlierRows]
  | n + 1, [], h => by simp at h
  | n + 1, c :: cs, h => by
    simp only [dltInlierRows]
    rw [dltInlierRows_ok n cs (by simpa using h), List.take_succ_cons, List.filter_cons]
    split <;> simp

/-- If a matrix takes the homogeneous coordinates of the images of four points in general position under a
regular transformation to multiples of what that transformation does, it is a multiple of it. -/
theorem dependent_unique {A B : Matrix (Fin 3) (Fin 3) ℝ} {p q : Fin 4 → ℝ × ℝ} (hg : General p)
    (hB : ∀ i, Projects B (p i) (q i)) (hd : B.det ≠ 0) (hA : ∀ i, ∃ s : ℝ, A.mulVec (hom2 (p i)) = s • hom2 (q i)) :
    ∃ k : ℝ, A = k • B := by
  -- the transformation of the points to the unit square
  let x : A8 ℝ := ⟨(p 0).1, (p 0).2, (p 1).1, (p 1).2, (p 2).1, (p 2).2, (p 3).1, (p 3).2⟩
  have hx : x.pt = p := by
    funext i
    fin_cases i <;> rfl
  have hN : ∀ i, (unitNum x).mat.mulVec (hom2 (p i)) = areaProd p i • hom2 (unitCorner i) := by
    intro i
    have := unitNum_mulVec x i
    rwa [hx] at this
  have hNd : (unitNum x).mat.det ≠ 0 := by
    intro h0
    have h := mulVec_three_det _ _ _ _ _ _ _ _ _ _ (hN 0) (hN 1) (hN 2)
    rw [h0, zero_mul] at h
    have : area2 (unitCorner 0 : ℝ × ℝ) (unitCorner 1) (unitCorner 2) = 1 := by simp [area2, unitCorner]
    rw [this, mul_one] at h
    exact mul_ne_zero (mul_ne_zero (areaProd_ne hg 0) (areaProd_ne hg 1)) (areaProd_ne hg 2) h.symm
  generalize (unitNum x).mat = N at hN hNd
  have hNu : IsUnit N.det := isUnit_iff_ne_zero.mpr hNd
  have hBu : IsUnit B.det := isUnit_iff_ne_zero.mpr hd
  have key : ∀ i, ∃ m : ℝ, (N * B⁻¹ * A * N⁻¹).mulVec (hom2 (unitCorner i)) = m • hom2 (unitCorner i) := by
    intro i
    obtain ⟨s, hs, hB⟩ := hB i
    obtain ⟨t, hA⟩ := hA i
    have hne := areaProd_ne hg i
    have h1 : N⁻¹.mulVec (hom2 (unitCorner i)) = (areaProd p i)⁻¹ • hom2 (p i) := by
      have : N⁻¹.mulVec (N.mulVec (hom2 (p i))) = hom2 (p i) := by
        rw [Matrix.mulVec_mulVec, Matrix.nonsing_inv_mul N hNu, Matrix.one_mulVec]
      rw [hN i, Matrix.mulVec_smul] at this
      rw [← this, smul_smul, inv_mul_cancel₀ hne, one_smul]
    have h2 : B⁻¹.mulVec (hom2 (q i)) = s⁻¹ • hom2 (p i) := by
      have : B⁻¹.mulVec (B.mulVec (hom2 (p i))) = hom2 (p i) := by
        rw [Matrix.mulVec_mulVec, Matrix.nonsing_inv_mul B hBu, Matrix.one_mulVec]
      rw [hB, Matrix.mulVec_smul] at this
      rw [← this, smul_smul, inv_mul_cancel₀ hs, one_smul]
    refine ⟨(areaProd p i)⁻¹ * t * s⁻¹ * areaProd p i, ?_⟩
    simp only [← Matrix.mulVec_mulVec, h1, Matrix.mulVec_smul, hA, h2, hN i, smul_smul]
    congr 1
    ring
  obtain ⟨m0, k0⟩ := key 0
  obtain ⟨m1, k1⟩ := key 1
  obtain ⟨m2, k2⟩ := key 2
  obtain ⟨m3, k3⟩ := key 3
  have hM : N * B⁻¹ * A * N⁻¹ = m0 • (1 : Matrix (Fin 3) (Fin 3) ℝ) := by
    generalize N * B⁻¹ * A * N⁻¹ = M at k0 k1 k2 k3
    have e : ∀ {m : ℝ} {v : ℝ × ℝ}, M.mulVec (hom2 v) = m • hom2 v →
        ∀ r, M r 0 * v.1 + M r 1 * v.2 + M r 2 = m * hom2 v r := by
      intro m v h r
      have := congrFun h r
      simpa [Matrix.mulVec, dotProduct, Fin.sum_univ_succ, hom2, add_assoc] using this
    have a0 := e k0 0
    have a1 := e k0 1
    have a2 := e k0 2
    have b0 := e k1 0
    have b1 := e k1 1
    have b2 := e k1 2
    have c0 := e k2 0
    have c1 := e k2 1
    have c2 := e k2 2
    have d0 := e k3 0
    have d1 := e k3 1
    have d2 := e k3 2
    simp [unitCorner, hom2] at a0 a1 a2 b0 b1 b2 c0 c1 c2 d0 d1 d2
    ext r c
    fin_cases r <;> fin_cases c <;> simp <;> grind
  refine ⟨m0, ?_⟩
  have h1 : B * (N⁻¹ * (N * B⁻¹ * A * N⁻¹) * N) = B * (N⁻¹ * (m0 • (1 : Matrix (Fin 3) (Fin 3) ℝ)) * N) := by rw [hM]
  have h2 : B * (N⁻¹ * (N * B⁻¹ * A * N⁻¹) * N) = A := by
    calc B * (N⁻¹ * (N * B⁻¹ * A * N⁻¹) * N) = B * ((N⁻¹ * N) * B⁻¹ * A * (N⁻¹ * N)) := by
          simp only [Matrix.mul_assoc]
      _ = A := by
          rw [Matrix.nonsing_inv_mul N hNu, Matrix.one_mul, Matrix.mul_one, ← Matrix.mul_assoc,
            Matrix.mul_nonsing_inv B hBu, Matrix.one_mul]
  have h3 : B * (N⁻¹ * (m0 • (1 : Matrix (Fin 3) (Fin 3) ℝ)) * N) = m0 • B := by
    rw [Matrix.mul_smul, Matrix.mul_one, Matrix.smul_mul, Matrix.nonsing_inv_mul N hNu, Matrix.mul_smul, Matrix.mul_one]
  rw [← h2, h1, h3]

end Nx
