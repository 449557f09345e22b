import Verif.Lemmas.Essential
import Verif.Lemmas.Svd

/-!
# C67: the essential matrix
-/

namespace Nx

section
variable {K : Type} [Field K]

/-- The matrix of the specification is that of the cross product. -/
theorem crossMat_mulVec (t v : Fin 3 → K) : (crossMat t).mulVec v = crossProduct t v := by
  ext i
  fin_cases i <;> simp [crossMat, crossProduct, Matrix.mulVec, dotProduct, Fin.sum_univ_three] <;> ring

/-- `nx_essential_from_Rt` computes `[t]ₓ R`. -/
theorem c67_from_rt (R : M3 K) (t : V3 K) : (essentialFromRt R t).mat = crossMat t.vec * R.mat := by
  ext i j
  fin_cases i <;> fin_cases j <;>
    simp [essentialFromRt, crossMat, V3.vec, M3.mat, Matrix.mul_apply, Fin.sum_univ_three] <;> ring

/-- The two directions in which a point is seen, in the coordinates of each of the cameras, satisfy the epipolar
constraint. -/
theorem c67_constraint (R : M3 K) (t : V3 K) (X : Fin 3 → K) :
    dotProduct (R.mat.mulVec X + t.vec) ((essentialFromRt R t).mat.mulVec X) = 0 := by
  simp [essentialFromRt, V3.vec, M3.mat, Matrix.mulVec, dotProduct, Fin.sum_univ_three]
  ring

/-- Intrinsic parameters of a camera as they are stored in an array: upper triangular, the last entry is one. -/
def Intrinsic (k : M3 K) : Prop := k.e1 = 0 ∧ k.e2 = 0 ∧ k.e5 = 0 ∧ k.e8 = 1

/-- `nx_essential_from_fundamental` uses the other triangle of its second array: it computes `K'ᵀ F K` if that array is the
transposed one. -/
theorem c67_from_fundamental_transposed (F k kp : M3 K) (hk : Intrinsic k)
    (hkp : Intrinsic ⟨kp.e0, kp.e3, kp.e6, kp.e1, kp.e4, kp.e7, kp.e2, kp.e5, kp.e8⟩) :
    (essentialFromFundamental F k kp).mat = kp.mat * F.mat * k.mat := by
  obtain ⟨h1, h2, h5, h8⟩ := hk
  obtain ⟨g1, g2, g5, g8⟩ := hkp
  simp only at g1 g2 g5 g8
  ext i j
  fin_cases i <;> fin_cases j <;>
    simp [essentialFromFundamental, M3.mat, Matrix.mul_apply, Fin.sum_univ_three, h1, h2, h5, h8, g1, g2, g5, g8] <;> ring

/-- With two arrays of intrinsic parameters the result is `K'ᵀ F K` if the second camera has
neither an offset of the principal point nor skew; in general these parameters are ignored. -/
theorem c67_from_fundamental_partial (F k kp : M3 K) (hk : Intrinsic k) (hkp : Intrinsic kp) :
    (essentialFromFundamental F k kp).mat = Matrix.diagonal ![kp.e0, kp.e4, 1] * F.mat * k.mat ∧
      (kp.e3 = 0 → kp.e6 = 0 → kp.e7 = 0 →
        (essentialFromFundamental F k kp).mat = kp.mat.transpose * F.mat * k.mat) := by
  obtain ⟨h1, h2, h5, h8⟩ := hk
  obtain ⟨g1, g2, g5, g8⟩ := hkp
  constructor
  · ext i j
    fin_cases i <;> fin_cases j <;>
      simp [essentialFromFundamental, M3.mat, Matrix.mul_apply, Fin.sum_univ_three, h1, h2, h5, h8, g1, g2, g5] <;> ring
  · intro h3 h6 h7
    ext i j
    fin_cases i <;> fin_cases j <;>
      simp [essentialFromFundamental, M3.mat, Matrix.mul_apply, Fin.sum_univ_three, h1, h2, h5, h8, g1, g2, g5, g8, h3, h6,
        h7] <;> ring

end

/-- Intrinsic parameters with a principal point. -/
def camera500 : M3 ℚ := ⟨500, 0, 0, 0, 500, 0, 320, 240, 1⟩

/-- The result is not `K'ᵀ F K`, as the comment says, for a camera with a principal point, nor a multiple of it. -/
theorem c67_from_fundamental_wrong :
    ∃ F k kp : M3 ℚ, Intrinsic k ∧ Intrinsic kp ∧
      ∀ c : ℚ, c • (essentialFromFundamental F k kp).mat ≠ kp.mat.transpose * F.mat * k.mat := by
  refine ⟨⟨0, 0, 0, 0, 0, 1, 0, -1, 0⟩, camera500, camera500, ⟨rfl, rfl, rfl, rfl⟩, ⟨rfl, rfl, rfl, rfl⟩, ?_⟩
  intro c h
  have h1 := congrFun (congrFun h 2) 2
  have h2 := congrFun (congrFun h 1) 2
  simp [essentialFromFundamental, camera500, M3.mat, Matrix.mul_apply, Fin.sum_univ_three] at h1 h2
  rw [h2] at h1
  norm_num at h1

/-- The matrices of the decomposition. -/
theorem decompose_mat (svd3 : M3 ℝ → M3 ℝ × V3 ℝ × M3 ℝ) (E : M3 ℝ) :
    ∃ R0 R2 : M3 ℝ, ∃ t0 t1 : V3 ℝ,
      essentialDecompose svd3 E = ([(R0, t0), (R0, t1), (R2, t0), (R2, t1)], (svd3 E).2.1.e2) ∧
      R0.mat = (fixSign (svd3 E).1).mat * quarter * (fixSign (svd3 E).2.2).mat ∧
      R2.mat = (fixSign (svd3 E).1).mat * quarter.transpose * (fixSign (svd3 E).2.2).mat ∧
      t0.vec = (fixSign (svd3 E).1).mat.mulVec ![0, 0, 1] ∧ t1.vec = (fixSign (svd3 E).1).mat.mulVec ![0, 0, -1] := by
  refine ⟨_, _, _, _, rfl, ?_, ?_, ?_, ?_⟩
  · ext i j
    fin_cases i <;> fin_cases j <;> simp [M3.mat, quarter, Matrix.mul_apply, Fin.sum_univ_three, sub_eq_add_neg]
  · have hq : (quarter : Matrix (Fin 3) (Fin 3) ℝ).transpose = !![0, 1, 0; -1, 0, 0; 0, 0, 1] := by
      ext i j
      fin_cases i <;> fin_cases j <;> simp [quarter]
    rw [hq]
    ext i j
    fin_cases i <;> fin_cases j <;> simp [M3.mat, Matrix.mul_apply, Fin.sum_univ_three]
  · ext i
    fin_cases i <;> simp [V3.vec, M3.mat, Matrix.mulVec, dotProduct, Fin.sum_univ_three]
  · ext i
    fin_cases i <;> simp [V3.vec, M3.mat, Matrix.mulVec, dotProduct, Fin.sum_univ_three]

/-- Unit vectors. -/
def IsUnit3 (t : Fin 3 → ℝ) : Prop := dotProduct t t = 1

/-- Whatever the matrix, `nx_essential_decompose_to_Rt` yields four pairs of a rotation and a unit vector. -/
theorem c67_decompose_rotations (svd3 : M3 ℝ → M3 ℝ × V3 ℝ × M3 ℝ) (E : M3 ℝ)
    (hs : IsSvd3 E.mat (svd3 E).1.mat (svd3 E).2.2.mat (svd3 E).2.1.vec) :
    (essentialDecompose svd3 E).1.length = 4 ∧
      ∀ p ∈ (essentialDecompose svd3 E).1, IsRotation p.1.mat ∧ IsUnit3 p.2.vec := by
  obtain ⟨hU, hV, -⟩ := hs
  obtain ⟨rU, -⟩ := fixSign_rot _ hU
  obtain ⟨rV, -⟩ := fixSign_rot _ hV
  obtain ⟨R0, R2, t0, t1, e, h0, h2, hp, hq⟩ := decompose_mat svd3 E
  have a0 : IsRotation R0.mat := by rw [h0]; exact (rU.mul quarter_rot).mul rV
  have a2 : IsRotation R2.mat := by rw [h2]; exact (rU.mul quarter_rot.transpose).mul rV
  have b0 : IsUnit3 t0.vec := by
    rw [IsUnit3, hp, dot_orth (mul_eq_one_comm.mp rU.1)]
    simp
  have b1 : IsUnit3 t1.vec := by
    rw [IsUnit3, hq, dot_orth (mul_eq_one_comm.mp rU.1)]
    simp
  rw [e]
  refine ⟨rfl, ?_⟩
  intro p hp
  simp at hp
  rcases hp with rfl | rfl | rfl | rfl
  · exact ⟨a0, b0⟩
  · exact ⟨a0, b1⟩
  · exact ⟨a2, b0⟩
  · exact ⟨a2, b1⟩

/-- An essential matrix with singular values `s`, `s`, 0: the four pairs are exactly those of a rotation and a unit
vector whose essential matrix is, up to sign, the given one divided by `s`. -/
theorem c67_decompose (svd3 : M3 ℝ → M3 ℝ × V3 ℝ × M3 ℝ) (E : M3 ℝ)
    (hs : IsSvd3 E.mat (svd3 E).1.mat (svd3 E).2.2.mat (svd3 E).2.1.vec) (s : ℝ) (hpos : 0 < s)
    (hS : (svd3 E).2.1 = ⟨s, s, 0⟩) (R : M3 ℝ) (t : V3 ℝ) :
    (R, t) ∈ (essentialDecompose svd3 E).1 ↔ IsRotation R.mat ∧ IsUnit3 t.vec ∧
      (s • (crossMat t.vec * R.mat) = E.mat ∨ s • (crossMat t.vec * R.mat) = -E.mat) := by
  have hrot := (c67_decompose_rotations svd3 E hs).2
  obtain ⟨hU, hV, -, -, -, hE⟩ := hs
  obtain ⟨rU, e, he, hUe⟩ := fixSign_rot _ hU
  obtain ⟨rV, f, hf, hVf⟩ := fixSign_rot _ hV
  obtain ⟨R0, R2, t0, t1, eq, h0, h2, hp, hq⟩ := decompose_mat svd3 E
  rw [hS] at hE
  -- the matrix in terms of the two rotations
  have hE' : E.mat = (s * (e * f)) • ((fixSign (svd3 E).1).mat * Matrix.diagonal ![1, 1, 0] * (fixSign (svd3 E).2.2).mat) := by
    have hD : Matrix.diagonal (⟨s, s, 0⟩ : V3 ℝ).vec = s • (Matrix.diagonal ![1, 1, 0] : Matrix (Fin 3) (Fin 3) ℝ) := by
      ext i j
      fin_cases i <;> fin_cases j <;> simp [V3.vec]
    rw [← hE, hUe, hVf, hD]
    simp only [Matrix.smul_mul, Matrix.mul_smul, smul_smul]
    congr 1
    ring
  generalize (fixSign (svd3 E).1).mat = U at *
  generalize (fixSign (svd3 E).2.2).mat = V at *
  have hef : (e * f) * (e * f) = 1 := by
    calc (e * f) * (e * f) = (e * e) * (f * f) := by ring
      _ = 1 := by rw [he, hf, one_mul]
  have hsign : e * f = 1 ∨ e * f = -1 := by
    rcases mul_self_eq_one_iff.mp hef with h | h
    · exact Or.inl h
    · exact Or.inr h
  -- up to sign
  have hpm : ∀ M : Matrix (Fin 3) (Fin 3) ℝ, (s • M = E.mat ∨ s • M = -E.mat) ↔
      ∃ g : ℝ, g * g = 1 ∧ M = g • (U * Matrix.diagonal ![1, 1, 0] * V) := by
    intro M
    constructor
    · intro h
      have : ∃ g : ℝ, g * g = 1 ∧ s • M = g • E.mat := by
        rcases h with h | h
        · exact ⟨1, by norm_num, by rw [h, one_smul]⟩
        · exact ⟨-1, by norm_num, by rw [h, neg_smul, one_smul]⟩
      obtain ⟨g, hg, hM⟩ := this
      refine ⟨g * (e * f), ?_, ?_⟩
      · calc g * (e * f) * (g * (e * f)) = (g * g) * ((e * f) * (e * f)) := by ring
          _ = 1 := by rw [hg, hef, one_mul]
      · have h3 : s⁻¹ • (s • M) = s⁻¹ • (g • E.mat) := by rw [hM]
        rw [smul_smul, inv_mul_cancel₀ hpos.ne', one_smul, hE', smul_smul, smul_smul] at h3
        rw [h3]
        congr 1
        field_simp
    · rintro ⟨g, hg, rfl⟩
      rw [hE', smul_smul]
      rcases mul_self_eq_one_iff.mp hg with rfl | rfl <;> rcases hsign with h | h <;> rw [h]
      · left; rfl
      · right; rw [← neg_smul]; congr 1; ring
      · right; rw [← neg_smul]; congr 1; ring
      · left; rfl
  rw [hpm]
  have hz : crossMat ![(0 : ℝ), 0, 1] * quarter = (-1 : ℝ) • Matrix.diagonal ![1, 1, 0] := by
    ext i j
    fin_cases i <;> fin_cases j <;> simp [crossMat, quarter, Matrix.mul_apply, Fin.sum_univ_three]
  have hz' : crossMat ![(0 : ℝ), 0, 1] * quarter.transpose = (1 : ℝ) • Matrix.diagonal ![1, 1, 0] := by
    ext i j
    fin_cases i <;> fin_cases j <;> simp [crossMat, quarter, Matrix.mul_apply, Fin.sum_univ_three]
  have hneg : crossMat ![(0 : ℝ), 0, -1] = (-1 : ℝ) • crossMat ![0, 0, 1] := by
    ext i j
    fin_cases i <;> fin_cases j <;> simp [crossMat]
  have hprod : ∀ (v : Fin 3 → ℝ) (Q : Matrix (Fin 3) (Fin 3) ℝ) (g : ℝ), crossMat v * Q = g • Matrix.diagonal ![1, 1, 0] →
      crossMat (U.mulVec v) * (U * Q * V) = g • (U * Matrix.diagonal ![1, 1, 0] * V) := by
    intro v Q g h
    rw [← Matrix.mul_assoc, ← Matrix.mul_assoc, crossMat_rot rU, Matrix.mul_assoc U, h, Matrix.mul_smul, Matrix.smul_mul]
  constructor
  · intro hm
    obtain ⟨hr1, hr2⟩ := hrot _ hm
    refine ⟨hr1, hr2, ?_⟩
    rw [eq] at hm
    simp only [List.mem_cons, Prod.mk.injEq, List.not_mem_nil, or_false] at hm
    rcases hm with ⟨rfl, rfl⟩ | ⟨rfl, rfl⟩ | ⟨rfl, rfl⟩ | ⟨rfl, rfl⟩
    · exact ⟨-1, by norm_num, by rw [hp, h0]; exact hprod _ _ _ hz⟩
    · exact ⟨1, by norm_num, by
        rw [hq, h0]
        exact hprod _ _ _ (by rw [hneg, Matrix.smul_mul, hz, smul_smul]; norm_num)⟩
    · exact ⟨1, by norm_num, by rw [hp, h2]; exact hprod _ _ _ hz'⟩
    · exact ⟨-1, by norm_num, by
        rw [hq, h2]
        exact hprod _ _ _ (by rw [hneg, Matrix.smul_mul, hz', smul_smul]; norm_num)⟩
  · rintro ⟨hR, ht, g, hg, hM⟩
    have hUU := mul_eq_one_comm.mp rU.1
    have hVV := mul_eq_one_comm.mp rV.1
    -- in the coordinates of the two rotations
    have htU : U.mulVec (U.transpose.mulVec t.vec) = t.vec := by rw [Matrix.mulVec_mulVec, rU.1, Matrix.one_mulVec]
    have hQr : IsRotation (U.transpose * R.mat * V.transpose) := (rU.transpose.mul hR).mul rV.transpose
    have hRQ : U * (U.transpose * R.mat * V.transpose) * V = R.mat := by
      calc U * (U.transpose * R.mat * V.transpose) * V = (U * U.transpose) * R.mat * (V.transpose * V) := by
            simp only [Matrix.mul_assoc]
        _ = R.mat := by rw [rU.1, hVV, Matrix.one_mul, Matrix.mul_one]
    have hc : crossMat (U.transpose.mulVec t.vec) * (U.transpose * R.mat * V.transpose)
        = g • Matrix.diagonal ![1, 1, 0] := by
      have h3 := crossMat_rot rU (U.transpose.mulVec t.vec)
      rw [htU] at h3
      calc crossMat (U.transpose.mulVec t.vec) * (U.transpose * R.mat * V.transpose)
          = U.transpose * (U * crossMat (U.transpose.mulVec t.vec)) * (U.transpose * R.mat * V.transpose) := by
            rw [← Matrix.mul_assoc U.transpose U, hUU, Matrix.one_mul]
        _ = U.transpose * (crossMat t.vec * (U * U.transpose) * R.mat) * V.transpose := by
            rw [← h3]
            simp only [Matrix.mul_assoc]
        _ = g • Matrix.diagonal ![1, 1, 0] := by
            rw [rU.1, Matrix.mul_one, hM, Matrix.mul_smul, Matrix.smul_mul]
            congr 1
            calc U.transpose * (U * Matrix.diagonal ![1, 1, 0] * V) * V.transpose
                = (U.transpose * U) * Matrix.diagonal ![1, 1, 0] * (V * V.transpose) := by
                  simp only [Matrix.mul_assoc]
              _ = Matrix.diagonal ![1, 1, 0] := by rw [hUU, rV.1, Matrix.one_mul, Matrix.mul_one]
    have htt : dotProduct (U.transpose.mulVec t.vec) (U.transpose.mulVec t.vec) = 1 := by
      rw [dot_orth (by rw [Matrix.transpose_transpose]; exact rU.1)]
      exact ht
    generalize U.transpose.mulVec t.vec = w at *
    generalize U.transpose * R.mat * V.transpose = Q at *
    -- the vector is on the third axis
    have hw : w = ![0, 0, 1] ∨ w = ![0, 0, -1] := by
      have hz : ∀ j, w 0 * (crossMat w * Q) 0 j + w 1 * (crossMat w * Q) 1 j + w 2 * (crossMat w * Q) 2 j = 0 := by
        intro j
        simp [crossMat, Matrix.mul_apply, Fin.sum_univ_three]
        ring
      rw [hc] at hz
      have z0 := hz 0
      have z1 := hz 1
      have hg0 : g ≠ 0 := by rintro rfl; simp at hg
      simp [hg0] at z0 z1
      simp only [dotProduct, Fin.sum_univ_three, z0, z1, mul_zero, zero_add] at htt
      rcases mul_self_eq_one_iff.mp htt with h | h
      · left
        funext i
        fin_cases i
        · exact z0
        · exact z1
        · exact h
      · right
        funext i
        fin_cases i
        · exact z0
        · exact z1
        · exact h
    rw [eq]
    simp only [List.mem_cons, Prod.mk.injEq, List.not_mem_nil, or_false]
    have hturn : ∀ g' : ℝ, g' * g' = 1 → crossMat ![(0 : ℝ), 0, 1] * Q = g' • Matrix.diagonal ![1, 1, 0] →
        R = R0 ∨ R = R2 := by
      intro g' hg' h
      have hQ := turn_of_cross hQr g' hg' h
      rcases mul_self_eq_one_iff.mp hg' with rfl | rfl
      · right
        apply mat_injective
        rw [h2, ← hRQ, hQ]
        congr 2
        ext i j
        fin_cases i <;> fin_cases j <;> simp [quarter]
      · left
        apply mat_injective
        rw [h0, ← hRQ, hQ]
        congr 2
        ext i j
        fin_cases i <;> fin_cases j <;> simp [quarter]
    rcases hw with hw | hw
    · have htt0 : t = t0 := vec_injective (by rw [hp, ← htU, hw])
      rw [hw] at hc
      rcases hturn g hg hc with h | h
      · exact Or.inl ⟨h, htt0⟩
      · exact Or.inr (Or.inr (Or.inl ⟨h, htt0⟩))
    · have htt1 : t = t1 := vec_injective (by rw [hq, ← htU, hw])
      rw [hw, hneg, Matrix.smul_mul] at hc
      have hc' : crossMat ![(0 : ℝ), 0, 1] * Q = (-g) • Matrix.diagonal ![1, 1, 0] := by
        have := congrArg (fun M => (-1 : ℝ) • M) hc
        simp only [smul_smul] at this
        norm_num at this
        rw [this, neg_smul]
      rcases hturn (-g) (by rw [neg_mul_neg, hg]) hc' with h | h
      · exact Or.inr (Or.inl ⟨h, htt1⟩)
      · exact Or.inr (Or.inr (Or.inr ⟨h, htt1⟩))

/-- The singular values of the essential matrix of a rotation and a vector of length `s` are `s`, `s`, 0. -/
theorem c67_singular_values {E U Vt : Matrix (Fin 3) (Fin 3) ℝ} {S : Fin 3 → ℝ} (hs : IsSvd3 E U Vt S)
    (R : Matrix (Fin 3) (Fin 3) ℝ) (t : Fin 3 → ℝ) (hR : IsRotation R) (s : ℝ) (hs0 : 0 ≤ s) (ht : dotProduct t t = s ^ 2)
    (hE : E = crossMat t * R) : S 0 = s ∧ S 1 = s ∧ S 2 = 0 := by
  obtain ⟨hU, hV, h2, h21, h10, hsvd⟩ := hs
  have hU' := mul_eq_one_comm.mp hU
  have hone : (1 : Matrix (Fin 3) (Fin 3) ℝ).transpose * 1 = 1 := by simp
  simp only [dotProduct, Fin.sum_univ_three] at ht
  -- three symmetric functions of the squares
  have f1 : S 0 ^ 2 + S 1 ^ 2 + S 2 ^ 2 = 2 * s ^ 2 := by
    have a : frobSq E = S 0 ^ 2 + S 1 ^ 2 + S 2 ^ 2 := by
      rw [← hsvd, frobSq_orth hU' hV]
      simp [frobSq, Fin.sum_univ_three, Matrix.diagonal_apply]
    have b : frobSq E = 2 * s ^ 2 := by
      rw [hE, ← Matrix.one_mul (crossMat t), frobSq_orth hone hR.1]
      simp [frobSq, Fin.sum_univ_three, crossMat]
      linear_combination 2 * ht
    rw [← a, b]
  have f2 : S 0 ^ 4 + S 1 ^ 4 + S 2 ^ 4 = 2 * s ^ 4 := by
    have a : frobSq (E.transpose * E) = S 0 ^ 4 + S 1 ^ 4 + S 2 ^ 4 := by
      have : E.transpose * E = Vt.transpose * (Matrix.diagonal S * Matrix.diagonal S) * Vt := by
        rw [← hsvd, Matrix.transpose_mul, Matrix.transpose_mul, Matrix.diagonal_transpose]
        calc Vt.transpose * (Matrix.diagonal S * U.transpose) * (U * Matrix.diagonal S * Vt)
            = Vt.transpose * (Matrix.diagonal S * (U.transpose * U) * Matrix.diagonal S) * Vt := by
              simp only [Matrix.mul_assoc]
          _ = _ := by rw [hU', Matrix.mul_one]
      rw [this, frobSq_orth (by rw [Matrix.transpose_transpose]; exact hV) hV, Matrix.diagonal_mul_diagonal]
      simp [frobSq, Fin.sum_univ_three, Matrix.diagonal_apply]
      ring
    have b : frobSq (E.transpose * E) = 2 * s ^ 4 := by
      have : E.transpose * E = R.transpose * ((crossMat t).transpose * crossMat t) * R := by
        rw [hE, Matrix.transpose_mul]
        simp only [Matrix.mul_assoc]
      rw [this, frobSq_orth (by rw [Matrix.transpose_transpose]; exact hR.1) hR.1]
      simp [frobSq, Fin.sum_univ_three, crossMat, Matrix.mul_apply]
      linear_combination (2 * (t 0 * t 0 + t 1 * t 1 + t 2 * t 2) + 2 * s ^ 2) * ht
    rw [← a, b]
  have f3 : S 2 = 0 := by
    have hd : E.det = 0 := by
      rw [hE, Matrix.det_mul]
      simp [crossMat, Matrix.det_fin_three]
      left
      ring
    have hd' : E.det = U.det * (S 0 * S 1 * S 2) * Vt.det := by
      rw [← hsvd, Matrix.det_mul, Matrix.det_mul, Matrix.det_diagonal, Fin.prod_univ_three]
    have hUd : U.det ≠ 0 := by
      intro h
      have := congrArg Matrix.det hU
      rw [Matrix.det_mul, h, zero_mul, Matrix.det_one] at this
      exact zero_ne_one this
    have hVd : Vt.det ≠ 0 := by
      intro h
      have := congrArg Matrix.det hV
      rw [Matrix.det_mul, h, zero_mul, Matrix.det_one] at this
      exact zero_ne_one this
    rw [hd] at hd'
    have h3 : S 0 * S 1 * S 2 = 0 := by
      rcases mul_eq_zero.mp hd'.symm with h | h
      · rcases mul_eq_zero.mp h with h | h
        · exact absurd h hUd
        · exact h
      · exact absurd h hVd
    rcases mul_eq_zero.mp h3 with h | h
    · rcases mul_eq_zero.mp h with h | h
      · linarith
      · linarith
    · exact h
  rw [f3] at f1 f2
  have g : (S 0 ^ 2 - S 1 ^ 2) ^ 2 = 0 := by
    have : (S 0 ^ 2 - S 1 ^ 2) ^ 2 = 2 * (S 0 ^ 4 + S 1 ^ 4 + 0 ^ 4) - (S 0 ^ 2 + S 1 ^ 2 + 0 ^ 2) ^ 2 := by ring
    rw [this, f1, f2]
    ring
  have g' : S 0 ^ 2 - S 1 ^ 2 = 0 := pow_eq_zero_iff two_ne_zero |>.mp g
  have h1 : 0 ≤ S 1 := h2.trans h21
  have h0 : 0 ≤ S 0 := h1.trans h10
  refine ⟨?_, ?_, f3⟩
  · exact (pow_left_inj₀ h0 hs0 two_ne_zero).mp (by linarith)
  · exact (pow_left_inj₀ h1 hs0 two_ne_zero).mp (by linarith)

/-- Decomposing the essential matrix of a rotation and a unit vector recovers them: they are among the four pairs, and every
other pair gives the same essential matrix up to sign. -/
theorem c67_recover (svd3 : M3 ℝ → M3 ℝ × V3 ℝ × M3 ℝ) (hs : Svd3Contract svd3) (R : M3 ℝ) (t : V3 ℝ)
    (hR : IsRotation R.mat) (ht : IsUnit3 t.vec) :
    (R, t) ∈ (essentialDecompose svd3 (essentialFromRt R t)).1 ∧ (essentialDecompose svd3 (essentialFromRt R t)).2 = 0 ∧
      ∀ p ∈ (essentialDecompose svd3 (essentialFromRt R t)).1,
        (essentialFromRt p.1 p.2).mat = (essentialFromRt R t).mat ∨
          (essentialFromRt p.1 p.2).mat = -(essentialFromRt R t).mat := by
  obtain ⟨h0, h1, h2⟩ := c67_singular_values (hs (essentialFromRt R t)) R.mat t.vec hR 1 zero_le_one
    (by rw [one_pow]; exact ht) (c67_from_rt R t)
  have hS : (svd3 (essentialFromRt R t)).2.1 = ⟨1, 1, 0⟩ := by
    apply vec_injective
    funext i
    fin_cases i
    · exact h0
    · exact h1
    · exact h2
  have key := c67_decompose svd3 (essentialFromRt R t) (hs _) 1 one_pos hS
  refine ⟨(key R t).mpr ⟨hR, ht, Or.inl (by rw [one_smul, c67_from_rt])⟩, ?_, ?_⟩
  · obtain ⟨R0, R2, t0, t1, eq, -⟩ := decompose_mat svd3 (essentialFromRt R t)
    rw [eq, hS]
  · intro p hp
    have := ((key p.1 p.2).mp hp).2.2
    rwa [one_smul, ← c67_from_rt] at this

/-- There is a decomposition as assumed, and a rotation and a unit vector. -/
example : (∃ svd3, Svd3Contract svd3) ∧ IsRotation (⟨0, 1, 0, -1, 0, 0, 0, 0, 1⟩ : M3 ℝ).mat ∧
    IsUnit3 (⟨3 / 5, 0, 4 / 5⟩ : V3 ℝ).vec := by
  refine ⟨exists_svd3_contract, ?_, ?_⟩
  · have : (⟨0, 1, 0, -1, 0, 0, 0, 0, 1⟩ : M3 ℝ).mat = quarter := by
      ext i j
      fin_cases i <;> fin_cases j <;> simp [M3.mat, quarter]
    rw [this]
    exact quarter_rot
  · simp only [IsUnit3, V3.vec, dotProduct, Fin.sum_univ_three, Matrix.cons_val]
    norm_num

end Nx
