import Mathlib.Tactic.Ring
import Mathlib.Tactic.FieldSimp
import Mathlib.Tactic.LinearCombination
import Mathlib.Tactic.FinCases
import Mathlib.LinearAlgebra.Matrix.ToLinearEquiv
import Mathlib.LinearAlgebra.Matrix.NonsingularInverse
import Verif.Spec.Transform2D

/-!
# Lemmas on the plane transformations
-/

namespace Nx

variable {K : Type} [Field K]

/-- The matrix of `estimateUnit` multiplied by `det`. -/
def unitNum (x : A8 K) : M3 K :=
  { (estimateUnitWith (fun _ => 1) x).1 with e8 := (estimateUnitWith (fun _ => 1) x).2 }

/-- The product of the areas of the triangles which have the `i`-th point as a corner. -/
def areaProd (p : Fin 4 → K × K) : Fin 4 → K :=
  ![area2 (p 0) (p 2) (p 3) * area2 (p 0) (p 1) (p 3) * area2 (p 0) (p 1) (p 2),
    area2 (p 1) (p 2) (p 3) * area2 (p 0) (p 1) (p 3) * area2 (p 0) (p 1) (p 2),
    area2 (p 1) (p 2) (p 3) * area2 (p 0) (p 2) (p 3) * area2 (p 0) (p 1) (p 2),
    area2 (p 1) (p 2) (p 3) * area2 (p 0) (p 2) (p 3) * area2 (p 0) (p 1) (p 3)]

theorem areaProd_ne {p : Fin 4 → K × K} (h : General p) (i : Fin 4) : areaProd p i ≠ 0 := by
  obtain ⟨h0, h1, h2, h3⟩ := h
  fin_cases i <;> simp [areaProd, h0, h1, h2, h3]

theorem estimateUnitWith_det (r s : K → K) (x : A8 K) : (estimateUnitWith r x).2 = (estimateUnitWith s x).2 := rfl

/-- The numerators do not depend on the reciprocal. -/
theorem estimateUnit_num (x : A8 K) (h : (estimateUnit x).2 ≠ 0) :
    unitNum x = ⟨(estimateUnit x).2 * (estimateUnit x).1.e0, (estimateUnit x).2 * (estimateUnit x).1.e1,
      (estimateUnit x).2 * (estimateUnit x).1.e2, (estimateUnit x).2 * (estimateUnit x).1.e3,
      (estimateUnit x).2 * (estimateUnit x).1.e4, (estimateUnit x).2 * (estimateUnit x).1.e5,
      (estimateUnit x).2 * (estimateUnit x).1.e6, (estimateUnit x).2 * (estimateUnit x).1.e7,
      (estimateUnit x).2 * (estimateUnit x).1.e8⟩ := by
  have ht := mul_one_div_cancel h
  have e0 : (estimateUnit x).1.e0 = 1 / (estimateUnit x).2 * (unitNum x).e0 := by
    show -(1 / (estimateUnit x).2) * _ * _ * _ = 1 / (estimateUnit x).2 * (-1 * _ * _ * _)
    ring
  have e1 : (estimateUnit x).1.e1 = 1 / (estimateUnit x).2 * (unitNum x).e1 := by
    show (1 / (estimateUnit x).2) * _ * _ = 1 / (estimateUnit x).2 * (1 * _ * _)
    ring
  have e2 : (estimateUnit x).1.e2 = 1 / (estimateUnit x).2 * (unitNum x).e2 := by
    show (1 / (estimateUnit x).2) * _ = 1 / (estimateUnit x).2 * (1 * _)
    ring
  have e3 : (estimateUnit x).1.e3 = 1 / (estimateUnit x).2 * (unitNum x).e3 := by
    show (1 / (estimateUnit x).2) * _ * _ = 1 / (estimateUnit x).2 * (1 * _ * _)
    ring
  have e4 : (estimateUnit x).1.e4 = 1 / (estimateUnit x).2 * (unitNum x).e4 := by
    show -(1 / (estimateUnit x).2) * _ = 1 / (estimateUnit x).2 * (-1 * _)
    ring
  have e5 : (estimateUnit x).1.e5 = 1 / (estimateUnit x).2 * (unitNum x).e5 := by
    show -(1 / (estimateUnit x).2) * _ = 1 / (estimateUnit x).2 * (-1 * _)
    ring
  have e6 : (estimateUnit x).1.e6 = 1 / (estimateUnit x).2 * (unitNum x).e6 := by
    show -(1 / (estimateUnit x).2) * _ * _ = 1 / (estimateUnit x).2 * (-1 * _ * _)
    ring
  have e7 : (estimateUnit x).1.e7 = 1 / (estimateUnit x).2 * (unitNum x).e7 := by
    show (1 / (estimateUnit x).2) * _ = 1 / (estimateUnit x).2 * (1 * _)
    ring
  have e8 : (unitNum x).e8 = (estimateUnit x).2 * (estimateUnit x).1.e8 := by
    show (estimateUnit x).2 = (estimateUnit x).2 * 1
    ring
  rw [← e8, e0, e1, e2, e3, e4, e5, e6, e7]
  generalize (estimateUnit x).2 = d at ht ⊢
  generalize (1 : K) / d = t at ht ⊢
  simp only [← mul_assoc, ht, one_mul]

theorem unitNum_row2 (x : A8 K) (i : Fin 4) :
    (unitNum x).e2 * (x.pt i).1 + (unitNum x).e5 * (x.pt i).2 + (unitNum x).e8 = areaProd x.pt i := by
  fin_cases i <;> simp [unitNum, estimateUnitWith, area2, A8.pt, areaProd] <;> ring

theorem unitNum_row0 (x : A8 K) (i : Fin 4) :
    (unitNum x).e0 * (x.pt i).1 + (unitNum x).e3 * (x.pt i).2 + (unitNum x).e6
      = areaProd x.pt i * (unitCorner i).1 := by
  fin_cases i <;> simp [unitNum, estimateUnitWith, area2, A8.pt, areaProd, unitCorner] <;> ring

theorem unitNum_row1 (x : A8 K) (i : Fin 4) :
    (unitNum x).e1 * (x.pt i).1 + (unitNum x).e4 * (x.pt i).2 + (unitNum x).e7
      = areaProd x.pt i * (unitCorner i).2 := by
  fin_cases i <;> simp [unitNum, estimateUnitWith, area2, A8.pt, areaProd, unitCorner] <;> ring

theorem mulVec_hom2 (A : M3 K) (p : K × K) :
    A.mat.mulVec (hom2 p) = ![A.e0 * p.1 + A.e3 * p.2 + A.e6, A.e1 * p.1 + A.e4 * p.2 + A.e7,
      A.e2 * p.1 + A.e5 * p.2 + A.e8] := by
  ext r
  fin_cases r <;> simp [M3.mat, hom2, Matrix.mulVec, dotProduct, Fin.sum_univ_succ] <;> ring

theorem smul_hom2 (s : K) (p : K × K) : s • hom2 p = ![s * p.1, s * p.2, s] := by
  ext r
  fin_cases r <;> simp [hom2]

/-- The numerators take each corner to the corner of the unit square, with an explicit factor. -/
theorem unitNum_mulVec (x : A8 K) (i : Fin 4) :
    (unitNum x).mat.mulVec (hom2 (x.pt i)) = areaProd x.pt i • hom2 (unitCorner i) := by
  rw [mulVec_hom2, smul_hom2, unitNum_row0, unitNum_row1, unitNum_row2]

theorem estimateUnit_mat (x : A8 K) (h : (estimateUnit x).2 ≠ 0) :
    (unitNum x).mat = (estimateUnit x).2 • (estimateUnit x).1.mat := by
  rw [estimateUnit_num x h]
  ext r c
  fin_cases r <;> fin_cases c <;> simp [M3.mat]

/-- The images of the four points determine the transformation up to a factor. -/
theorem projects_unique {A B : Matrix (Fin 3) (Fin 3) K} {p : Fin 4 → K × K}
    (hA : ∀ i, Projects A (p i) (unitCorner i)) (hB : ∀ i, Projects B (p i) (unitCorner i)) (hd : A.det ≠ 0) :
    ∃ k : K, k ≠ 0 ∧ B = k • A := by
  have hu : IsUnit A.det := isUnit_iff_ne_zero.mpr hd
  have key : ∀ i, ∃ m : K, m ≠ 0 ∧ (B * A⁻¹).mulVec (hom2 (unitCorner i)) = m • hom2 (unitCorner i) := by
    intro i
    obtain ⟨s, hs, hsA⟩ := hA i
    obtain ⟨t, ht, htB⟩ := hB i
    refine ⟨t / s, div_ne_zero ht hs, ?_⟩
    have h1 : A⁻¹.mulVec (hom2 (unitCorner i)) = s⁻¹ • hom2 (p i) := by
      have : A⁻¹.mulVec (A.mulVec (hom2 (p i))) = hom2 (p i) := by
        rw [Matrix.mulVec_mulVec, Matrix.nonsing_inv_mul A hu, Matrix.one_mulVec]
      rw [hsA, Matrix.mulVec_smul] at this
      rw [← this, smul_smul, inv_mul_cancel₀ hs, one_smul]
    rw [← Matrix.mulVec_mulVec, h1, Matrix.mulVec_smul, htB, smul_smul]
    congr 1
    field_simp
  obtain ⟨m0, hm0, k0⟩ := key 0
  obtain ⟨m1, hm1, k1⟩ := key 1
  obtain ⟨m2, hm2, k2⟩ := key 2
  obtain ⟨m3, hm3, k3⟩ := key 3
  have hM : B * A⁻¹ = m0 • (1 : Matrix (Fin 3) (Fin 3) K) := by
    generalize B * A⁻¹ = M at k0 k1 k2 k3
    have e : ∀ {m : K} {v : K × K}, M.mulVec (hom2 v) = m • hom2 v →
        ∀ r, M r 0 * v.1 + M r 1 * v.2 + M r 2 = m * hom2 v r := by
      intro m v h r
      have := congrFun h r
      simpa [Matrix.mulVec, dotProduct, Fin.sum_univ_succ, hom2, add_assoc] using this
    have a0 := e k0 0
    have a1 := e k0 1
    have a2 := e k0 2
    have b0 := e k1 0
    have b1 := e k1 1
    have b2 := e k1 2
    have c0 := e k2 0
    have c1 := e k2 1
    have c2 := e k2 2
    have d0 := e k3 0
    have d1 := e k3 1
    have d2 := e k3 2
    simp [unitCorner, hom2] at a0 a1 a2 b0 b1 b2 c0 c1 c2 d0 d1 d2
    ext r c
    fin_cases r <;> fin_cases c <;> simp <;> grind
  refine ⟨m0, hm0, ?_⟩
  have : B * A⁻¹ * A = m0 • (1 : Matrix (Fin 3) (Fin 3) K) * A := by rw [hM]
  rwa [Matrix.mul_assoc, Matrix.nonsing_inv_mul A hu, Matrix.mul_one, Matrix.smul_mul, Matrix.one_mul] at this

/-- The area of the image of a triangle. -/
theorem mulVec_three_det (A : Matrix (Fin 3) (Fin 3) K) (p q r p' q' r' : K × K) (s t u : K)
    (hp : A.mulVec (hom2 p) = s • hom2 p') (hq : A.mulVec (hom2 q) = t • hom2 q')
    (hr : A.mulVec (hom2 r) = u • hom2 r') : A.det * area2 p q r = s * t * u * area2 p' q' r' := by
  have e : ∀ {m : K} {v w : K × K}, A.mulVec (hom2 v) = m • hom2 w →
      ∀ i, A i 0 * v.1 + A i 1 * v.2 + A i 2 = m * hom2 w i := by
    intro m v w h i
    have := congrFun h i
    simpa [Matrix.mulVec, dotProduct, Fin.sum_univ_succ, hom2, add_assoc] using this
  have h1 : A * (!![p.1, q.1, r.1; p.2, q.2, r.2; 1, 1, 1] : Matrix (Fin 3) (Fin 3) K)
      = !![s * p'.1, t * q'.1, u * r'.1; s * p'.2, t * q'.2, u * r'.2; s, t, u] := by
    have a0 := e hp 0
    have a1 := e hp 1
    have a2 := e hp 2
    have b0 := e hq 0
    have b1 := e hq 1
    have b2 := e hq 2
    have c0 := e hr 0
    have c1 := e hr 1
    have c2 := e hr 2
    simp [hom2] at a0 a1 a2 b0 b1 b2 c0 c1 c2
    ext i j
    fin_cases i <;> fin_cases j <;> simp [Matrix.mul_apply, Fin.sum_univ_succ] <;> grind
  have h2 := congrArg Matrix.det h1
  rw [Matrix.det_mul] at h2
  have h3 : (!![p.1, q.1, r.1; p.2, q.2, r.2; 1, 1, 1] : Matrix (Fin 3) (Fin 3) K).det = area2 p q r := by
    simp [Matrix.det_fin_three, area2]
    ring
  rw [h3] at h2
  rw [h2]
  simp [Matrix.det_fin_three, area2]
  ring

theorem hom2_ne_zero (p : K × K) : hom2 p ≠ 0 := by
  intro h
  have := congrFun h 2
  simp [hom2] at this

end Nx
