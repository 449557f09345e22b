import Mathlib.LinearAlgebra.CrossProduct
import Mathlib.Analysis.Real.Sqrt
import Mathlib.Tactic.Ring
import Mathlib.Tactic.FieldSimp
import Mathlib.Tactic.FinCases
import Mathlib.Tactic.NormNum
import Mathlib.Tactic.LinearCombination
import Mathlib.Tactic.Linarith
import Verif.Spec.Mat
import Verif.Lemmas.Mat

/-!
# C57: products, inverses and determinants of small matrices
-/

namespace Nx

variable {K : Type} [Field K]

/-- `nx_smat3_mul`, `nx_dmat3_mul` compute the matrix product. -/
theorem c57_mul (A B : M3 K) : (dmat3Mul A B).mat = A.mat * B.mat := by
  ext r c
  fin_cases r <;> fin_cases c <;> simp [dmat3Mul, M3.mat, Matrix.mul_apply, Fin.sum_univ_succ] <;> ring

/-- `nx_smat4_mul`, `nx_dmat4_mul` compute the matrix product. -/
theorem c57_mul4 (A B : M4 K) : (dmat4Mul A B).mat = A.mat * B.mat := by
  ext r c
  fin_cases r <;> fin_cases c <;> simp [dmat4Mul, M4.mat, Matrix.mul_apply, Fin.sum_univ_succ] <;> ring

/-- `nx_dmat3_eye` and `nx_dmat4_eye` are identity matrices. -/
theorem c57_eye : (dmat3Eye : M3 K).mat = 1 ∧ (dmat4Eye : M4 K).mat = 1 := by
  constructor
  · ext r c
    fin_cases r <;> fin_cases c <;> simp [dmat3Eye, dmat3SetZero, M3.mat]
  · ext r c
    fin_cases r <;> fin_cases c <;> simp [dmat4Eye, M4.mat]

/-- `nx_dmat3_det` is the determinant. -/
theorem c57_det (A : M3 K) : dmat3Det A = A.mat.det := by
  simp [dmat3Det, M3.mat, Matrix.det_fin_three]
  ring

/-- The value returned by `nx_dmat3_inv` is the determinant. -/
theorem c57_inv_det [DecidableEq K] (A : M3 K) : (dmat3Inv A).2 = A.mat.det := by
  rw [← c57_det]
  simp only [dmat3Inv, dmat3Det]
  split <;> ring

/-- A matrix of nonzero determinant times the result of `nx_dmat3_inv` is the identity, on
both sides. -/
theorem c57_inv [DecidableEq K] (A : M3 K) (h : A.mat.det ≠ 0) :
    A.mat * (dmat3Inv A).1.mat = 1 ∧ (dmat3Inv A).1.mat * A.mat = 1 := by
  have key : A.mat * (dmat3Inv A).1.mat = 1 := by
    rw [← c57_inv_det] at h
    have hd : (dmat3Inv A).2 = A.e0 * A.e4 * A.e8 - A.e0 * A.e7 * A.e5 - A.e3 * A.e1 * A.e8 + A.e6 * A.e1 * A.e5
        + A.e3 * A.e2 * A.e7 - A.e6 * A.e2 * A.e4 := by
      simp only [dmat3Inv]
      split <;> rfl
    rw [hd] at h
    simp only [dmat3Inv, if_pos h]
    have ht := mul_one_div_cancel h
    generalize (1 : K) / _ = t at ht ⊢
    ext r c
    fin_cases r <;> fin_cases c <;> simp [M3.mat, Matrix.mul_apply, Fin.sum_univ_succ] <;>
      first | ring1 | linear_combination ht
  exact ⟨key, mul_eq_one_comm.mp key⟩

/-- A matrix of determinant zero, for which there is no inverse, gets the zero matrix and
0 is returned. -/
theorem c57_inv_singular [DecidableEq K] (A : M3 K) (h : A.mat.det = 0) :
    (dmat3Inv A).1.mat = 0 ∧ (dmat3Inv A).2 = 0 ∧ ¬ ∃ B : Matrix (Fin 3) (Fin 3) K, A.mat * B = 1 := by
  have h2 : (dmat3Inv A).2 = 0 := by rw [c57_inv_det, h]
  refine ⟨?_, h2, ?_⟩
  · have hd : A.e0 * A.e4 * A.e8 - A.e0 * A.e7 * A.e5 - A.e3 * A.e1 * A.e8 + A.e6 * A.e1 * A.e5
        + A.e3 * A.e2 * A.e7 - A.e6 * A.e2 * A.e4 = 0 := by
      rw [← h2]
      simp only [dmat3Inv]
      split <;> rfl
    simp only [dmat3Inv, if_neg (not_not.mpr hd)]
    ext r c
    fin_cases r <;> fin_cases c <;> simp [M3.mat, dmat3SetZero]
  · rintro ⟨B, hB⟩
    have := congrArg Matrix.det hB
    rw [Matrix.det_mul, h, zero_mul, Matrix.det_one] at this
    exact zero_ne_one this

example : (dmat3Inv (⟨2, 0, 0, 1, 1, 0, 0, 3, 1⟩ : M3 Rat)) = (⟨1 / 2, 0, 0, -1 / 2, 1, 0, 3 / 2, -3, 1⟩, 2) := by
  decide +kernel

example : (M3.mat (⟨2, 0, 0, 1, 1, 0, 0, 3, 1⟩ : M3 Rat)).det ≠ 0 := by
  rw [← c57_det]
  decide +kernel

/-- `nx_dmat3_mul_ua` is the product with an upper triangular matrix; what is stored below
the diagonal of the first argument is ignored. -/
theorem c57_mul_ua (U A : M3 K) :
    (dmat3MulUa U A).mat = Matrix.of (fun r c => if r ≤ c then U.mat r c else 0) * A.mat := by
  ext r c
  fin_cases r <;> fin_cases c <;>
    simp [dmat3MulUa, M3.mat, Matrix.mul_apply, Fin.sum_univ_succ] <;> ring

/-- `nx_dmat3_transform` is the product of a matrix and a vector. -/
theorem c57_transform (A : M3 K) (v : V3 K) : (dmat3Transform A v).vec = A.mat.mulVec v.vec := by
  ext r
  fin_cases r <;> simp [dmat3Transform, M3.mat, V3.vec, Matrix.mulVec, dotProduct, Fin.sum_univ_succ] <;> ring

/-- `nx_dmat3_xptFx` is the bilinear form of `F` on homogeneous coordinates. -/
theorem c57_xptFx (F : M3 K) (x xp : K × K) :
    dmat3XptFx F x xp = ![xp.1, xp.2, 1] ⬝ᵥ F.mat.mulVec ![x.1, x.2, 1] := by
  simp [dmat3XptFx, M3.mat, Matrix.mulVec, dotProduct, Fin.sum_univ_succ]
  ring

/-- `nx_dmat3_sub` is the difference; `nx_dmat3_frob_norm` is the square root of the sum of
the squares of the entries. -/
theorem c57_sub_frob (A B : M3 K) :
    (dmat3Sub A B).mat = A.mat - B.mat ∧ dmat3FrobSq A = ∑ r, ∑ c, A.mat r c ^ 2 := by
  constructor
  · ext r c
    fin_cases r <;> fin_cases c <;> simp [dmat3Sub, M3.mat]
  · simp [dmat3FrobSq, M3.mat, Fin.sum_univ_succ]
    ring

/-- A 4×4 matrix made of the identity with a rotation and a translation set maps a point
`v` in homogeneous coordinates to `R v + t`. -/
theorem c57_rigid (R : M3 K) (t : V3 K) (v : Fin 3 → K) :
    (dmat4SetTranslation (dmat4SetRotation dmat4Eye R) t).mat.mulVec (homog v) =
      homog (R.mat.mulVec v + t.vec) := by
  ext r
  fin_cases r <;>
    simp [dmat4SetTranslation, dmat4SetRotation, dmat4Eye, homog, M4.mat, M3.mat, V3.vec, Matrix.mulVec, dotProduct,
      Fin.sum_univ_succ] <;> ring

omit [Field K] in
/-- Setting rotation and translation commute and overwrite what was there before. -/
theorem c57_rigid_set (M : M4 K) (R R' : M3 K) (t t' : V3 K) :
    dmat4SetRotation (dmat4SetTranslation M t) R = dmat4SetTranslation (dmat4SetRotation M R) t ∧
    dmat4SetRotation (dmat4SetRotation M R') R = dmat4SetRotation M R ∧
    dmat4SetTranslation (dmat4SetTranslation M t') t = dmat4SetTranslation M t := ⟨rfl, rfl, rfl⟩

/-- `nx_dvec3_cross` is the cross product, `nx_dvec3_dot` the scalar product. -/
theorem c57_cross_dot (a b : V3 K) :
    (dvec3Cross a b).vec = crossProduct a.vec b.vec ∧ dvec3Dot a b = a.vec ⬝ᵥ b.vec := by
  constructor
  · ext r
    fin_cases r <;> simp [dvec3Cross, V3.vec, cross_apply]
  · simp [dvec3Dot, V3.vec, dotProduct, Fin.sum_univ_succ]
    ring

/-- `nx_dvec3_to_unit` returns the Euclidean norm; it leaves the zero vector alone and
makes any other vector `v` a vector `u` of norm one with `v = |v| u`. -/
theorem c57_to_unit (v : V3 ℝ) :
    (dvec3ToUnit Real.sqrt v).2 = Real.sqrt (v.vec ⬝ᵥ v.vec) ∧
    (v.vec = 0 → (dvec3ToUnit Real.sqrt v).1 = v) ∧
    (v.vec ≠ 0 → (dvec3ToUnit Real.sqrt v).1.vec ⬝ᵥ (dvec3ToUnit Real.sqrt v).1.vec = 1 ∧
      v.vec = (dvec3ToUnit Real.sqrt v).2 • (dvec3ToUnit Real.sqrt v).1.vec) := by
  have hN : v.vec ⬝ᵥ v.vec = dvec3NormSq v := by
    simp [dvec3NormSq, V3.vec, dotProduct, Fin.sum_univ_succ]
    ring
  refine ⟨by rw [hN]; rfl, ?_, ?_⟩
  · intro h0
    have : dvec3NormSq v = 0 := by rw [← hN, h0, zero_dotProduct]
    simp [dvec3ToUnit, this]
  · intro h0
    have hpos : 0 < dvec3NormSq v := by
      by_contra hc
      have h1 : v.e0 * v.e0 + v.e1 * v.e1 + v.e2 * v.e2 ≤ 0 := not_lt.mp hc
      have e0 : v.e0 = 0 := by nlinarith [sq_nonneg v.e1, sq_nonneg v.e2]
      have e1 : v.e1 = 0 := by nlinarith [sq_nonneg v.e0, sq_nonneg v.e2]
      have e2 : v.e2 = 0 := by nlinarith [sq_nonneg v.e0, sq_nonneg v.e1]
      apply h0
      ext r
      fin_cases r <;> simp [V3.vec, e0, e1, e2]
    have hn : Real.sqrt (dvec3NormSq v) ≠ 0 := (Real.sqrt_pos.mpr hpos).ne'
    have hs := Real.mul_self_sqrt hpos.le
    simp only [dvec3ToUnit, if_pos hn]
    generalize Real.sqrt (dvec3NormSq v) = n at hn hs ⊢
    simp only [dvec3NormSq] at hs
    constructor
    · simp [V3.vec, dotProduct, Fin.sum_univ_succ]
      field_simp
      linear_combination -hs
    · ext r
      fin_cases r <;> simp [V3.vec] <;> field_simp

example : (V3.vec (⟨3, 0, 4⟩ : V3 ℝ)) ≠ 0 := by
  intro h
  have := congrFun h 0
  simp [V3.vec] at this

/-- `nx_dmat_mul` stores the product of two matrices of any size and with any leading
dimensions; it reads and writes only inside the arrays and changes nothing but the
elements of the result. -/
theorem c57_dmat_mul {m n k : Nat} {A : List K} {ldA : Nat} {B : List K} {ldB : Nat} {C : List K} {ldC : Nat}
    {Am : Matrix (Fin m) (Fin k) K} {Bm : Matrix (Fin k) (Fin n) K} (hA : Stores A m k ldA Am)
    (hB : Stores B k n ldB Bm) (lA : A.length ≤ 2147483648) (lB : B.length ≤ 2147483648)
    (lC : C.length ≤ 2147483648) (hld : m ≤ ldC) (hC : ∀ r c, r < m → c < n → c * ldC + r < C.length) :
    ∃ C', dmatMul m n k A ldA B ldB C ldC = .ok C' ∧ Stores C' m n ldC (Am * Bm) ∧ C'.length = C.length ∧
      ∀ i, (∀ r c, r < m → c < n → i ≠ c * ldC + r) → C'[i]? = C[i]? := by
  obtain ⟨C', e, hF⟩ := col_fill_spec (ld := ldC) (H := n) (w := m) (d0 := C)
    (f := fun r c => if h : r < m ∧ c < n then (Am * Bm) ⟨r, h.1⟩ ⟨c, h.2⟩ else 0)
    (body := fun c r C => dmatMulEntry k A ldA B ldB ldC c r C) hld hC (by
      intro c r d hc hr hd
      rw [dmatMulEntry_spec hA hB lA lB (by omega) hr hc (by rw [hd]; exact hC r c hr hc), dif_pos ⟨hr, hc⟩])
  refine ⟨C', e, ?_, hF.len, hF.other⟩
  intro r c
  rw [hF.here r.val c.val r.isLt c.isLt (Or.inl c.isLt), dif_pos ⟨r.isLt, c.isLt⟩]

example : dmatMul 2 1 3 ([1, 2, 0, 3, 4, 0, 5, 6] : List Rat) 3 [1, 1, 2] 3 [9, 9, 9] 2 = .ok [14, 18, 9] := by
  decide +kernel

example : Stores ([1, 2, 0, 3, 4, 0, 5, 6] : List Rat) 2 3 3 !![1, 3, 5; 2, 4, 6] := by
  intro r c
  fin_cases r <;> fin_cases c <;> rfl

/-- The condition on the leading dimension of the result is needed and not asserted by
`nx_dmat_mul`: the columns would overwrite each other. -/
theorem c57_dmat_mul_overlap : ∃ C' : List Rat,
    dmatMul 2 2 1 [1, 2] 2 [1, 10] 1 [0, 0, 0] 1 = .ok C' ∧ ¬ Stores C' 2 2 1 ((!![1; 2] : Matrix (Fin 2) (Fin 1) Rat) * (!![1, 10] : Matrix (Fin 1) (Fin 2) Rat)) := by
  refine ⟨[1, 10, 20], by decide +kernel, ?_⟩
  intro h
  have := h 1 0
  simp [Matrix.mul_apply] at this

omit [Field K] in
/-- `nx_dmat_set` (and `nx_dmat_set_zero`) sets the elements of the matrix and nothing else. -/
theorem c57_dmat_set {m n : Nat} {A : List K} {ld : Nat} {x : K} (lA : A.length ≤ 2147483648) (hld : m ≤ ld)
    (hm : 0 < m) (hA : ∀ r c, r < m → c < n → c * ld + r < A.length) :
    ∃ A', dmatSet m n A ld x = .ok A' ∧ Stores A' m n ld (Matrix.of fun _ _ => x) ∧ A'.length = A.length ∧
      ∀ i, (∀ r c, r < m → c < n → i ≠ c * ld + r) → A'[i]? = A[i]? := by
  obtain ⟨A', e, hF⟩ := col_fill_spec (ld := ld) (H := n) (w := m) (d0 := A) (f := fun _ _ => x)
    (body := fun i j A => do
      let o ← idx32 (i * ld)
      writeAt A (o + j) x) hld hA (by
      intro c r d hc hr hd
      have := hA r c hr hc
      rw [idx32_ok (by omega)]
      simp only [Res.ok_bind]
      exact writeAt_ok _ (by omega))
  refine ⟨A', ?_, ?_, hF.len, hF.other⟩
  · unfold dmatSet
    rw [if_pos hld, ← e]
    apply forLoop_congr
    intro i A hi
    have := hA 0 i hm hi
    rw [idx32_ok (by omega)]
    rfl
  · intro r c
    exact hF.here r.val c.val r.isLt c.isLt (Or.inl c.isLt)

end Nx
