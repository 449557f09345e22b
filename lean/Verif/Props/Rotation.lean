import Mathlib.Tactic.Ring
import Mathlib.Tactic.FieldSimp
import Mathlib.Tactic.FinCases
import Mathlib.Tactic.NormNum
import Mathlib.Tactic.LinearCombination
import Mathlib.Tactic.Linarith
import Verif.Spec.Rotation
import Verif.Props.Mat

/-!
# C58 and C59: quaternions and rotation matrices
-/

namespace Nx

open Quaternion

variable {K : Type} [Field K]

@[simp] theorem Q4.quat_re {K : Type} [CommRing K] (q : Q4 K) : q.quat.re = q.e0 := rfl
@[simp] theorem Q4.quat_imI {K : Type} [CommRing K] (q : Q4 K) : q.quat.imI = q.e1 := rfl
@[simp] theorem Q4.quat_imJ {K : Type} [CommRing K] (q : Q4 K) : q.quat.imJ = q.e2 := rfl
@[simp] theorem Q4.quat_imK {K : Type} [CommRing K] (q : Q4 K) : q.quat.imK = q.e3 := rfl
@[simp] theorem V3.quat_re {K : Type} [CommRing K] (v : V3 K) : v.quat.re = 0 := rfl
@[simp] theorem V3.quat_imI {K : Type} [CommRing K] (v : V3 K) : v.quat.imI = v.e0 := rfl
@[simp] theorem V3.quat_imJ {K : Type} [CommRing K] (v : V3 K) : v.quat.imJ = v.e1 := rfl
@[simp] theorem V3.quat_imK {K : Type} [CommRing K] (v : V3 K) : v.quat.imK = v.e2 := rfl

/-- Product, sum, conjugate and squared norm are those of the quaternions; the in-place
operations agree. -/
theorem c58_algebra (r s : Q4 K) :
    (quatProd r s).quat = r.quat * s.quat ∧ quatMul r s = quatProd r s ∧
    (quatSum r s).quat = r.quat + s.quat ∧ quatAdd r s = quatSum r s ∧
    (quatConj r).quat = star r.quat ∧ quatDot r r = normSq r.quat := by
  refine ⟨?_, rfl, ?_, rfl, ?_, ?_⟩
  · ext <;> simp [quatProd]
  · ext <;> simp [quatSum]
  · ext <;> simp [quatConj]
  · simp [quatDot, normSq_def']
    ring

/-- `nx_quaternion_rotate` computes `q v q*`. -/
theorem c58_rotate (q : Q4 K) (v : V3 K) : (quatRotate q v).quat = q.quat * v.quat * star q.quat := by
  ext <;> simp [quatRotate] <;> ring

/-- For unit quaternions `nx_quaternion_rotate` multiplies with the matrix of
`nx_quaternion_to_R`. -/
theorem c58_rotate_matrix (q : Q4 K) (v : V3 K) (h : quatDot q q = 1) :
    (quatRotate q v).vec = (quatToR q).mat.mulVec v.vec := by
  simp only [quatDot] at h
  ext r
  fin_cases r <;>
    simp [quatRotate, quatToR, M3.mat, V3.vec, Matrix.mulVec, dotProduct, Fin.sum_univ_succ]
  · linear_combination v.e0 * h
  · linear_combination v.e1 * h
  · linear_combination v.e2 * h

/-- The matrix of a unit quaternion is a rotation. -/
theorem c58_to_R_rotation (q : Q4 K) (h : quatDot q q = 1) : IsRotation (quatToR q).mat := by
  simp only [quatDot] at h
  have h0 : q.e0 * q.e0 = 1 - (q.e1 * q.e1 + q.e2 * q.e2 + q.e3 * q.e3) := by linear_combination h
  constructor
  · ext r c
    fin_cases r <;> fin_cases c <;>
      simp [quatToR, M3.mat, Matrix.mul_apply, Fin.sum_univ_succ] <;> grind
  · rw [← c57_det]
    simp only [quatToR, dmat3Det]
    grind

/-- The matrix of a product of unit quaternions is the product of their matrices. -/
theorem c58_compose (r s : Q4 K) (hr : quatDot r r = 1) (hs : quatDot s s = 1) :
    (quatToR (quatProd r s)).mat = (quatToR r).mat * (quatToR s).mat := by
  simp only [quatDot] at hr hs
  ext i j
  fin_cases i <;> fin_cases j <;>
    simp [quatToR, quatProd, M3.mat, Matrix.mul_apply, Fin.sum_univ_succ] <;> grind

example : quatDot (⟨1 / 2, 1 / 2, -1 / 2, 1 / 2⟩ : Q4 Rat) ⟨1 / 2, 1 / 2, -1 / 2, 1 / 2⟩ = 1 := by decide +kernel

/-- `nx_quaternion_to_unit` makes a nonzero quaternion a unit quaternion, a multiple of it
by the returned norm. -/
theorem c58_to_unit (q : Q4 ℝ) (h : q.quat ≠ 0) :
    quatDot (quatToUnit Real.sqrt q).1 (quatToUnit Real.sqrt q).1 = 1 ∧
    0 < (quatToUnit Real.sqrt q).2 ∧ q.quat = (quatToUnit Real.sqrt q).2 • (quatToUnit Real.sqrt q).1.quat := by
  have hpos : 0 < quatDot q q := by
    have h1 := (c58_algebra q q).2.2.2.2.2
    rw [h1]
    exact lt_of_le_of_ne normSq_nonneg (fun h0 => h (normSq_eq_zero.mp h0.symm))
  have hn := Real.sqrt_pos.mpr hpos
  have hs := Real.mul_self_sqrt hpos.le
  simp only [quatToUnit]
  generalize Real.sqrt (quatDot q q) = n at hn hs ⊢
  have hne := hn.ne'
  refine ⟨?_, hn, ?_⟩
  · simp only [quatDot, quatScale] at hs ⊢
    field_simp
    linear_combination -hs
  · ext <;> simp [quatScale] <;> field_simp

theorem rotation_eqs {K : Type} [Field K] {R : M3 K} (h : IsRotation R.mat) :
    (R.e0 * R.e0 + R.e3 * R.e3 + R.e6 * R.e6 = 1 ∧ R.e1 * R.e1 + R.e4 * R.e4 + R.e7 * R.e7 = 1 ∧
      R.e2 * R.e2 + R.e5 * R.e5 + R.e8 * R.e8 = 1 ∧ R.e0 * R.e1 + R.e3 * R.e4 + R.e6 * R.e7 = 0 ∧
      R.e0 * R.e2 + R.e3 * R.e5 + R.e6 * R.e8 = 0 ∧ R.e1 * R.e2 + R.e4 * R.e5 + R.e7 * R.e8 = 0) ∧
    (R.e4 * R.e8 - R.e5 * R.e7 = R.e0 ∧ R.e5 * R.e6 - R.e3 * R.e8 = R.e1 ∧ R.e3 * R.e7 - R.e4 * R.e6 = R.e2 ∧
      R.e2 * R.e7 - R.e1 * R.e8 = R.e3 ∧ R.e0 * R.e8 - R.e2 * R.e6 = R.e4 ∧ R.e1 * R.e6 - R.e0 * R.e7 = R.e5 ∧
      R.e1 * R.e5 - R.e2 * R.e4 = R.e6 ∧ R.e2 * R.e3 - R.e0 * R.e5 = R.e7 ∧ R.e0 * R.e4 - R.e1 * R.e3 = R.e8) := by
  have hd := h.2
  rw [← c57_det] at hd
  simp only [dmat3Det] at hd
  have ho := h.1
  have o := fun r c => congrFun (congrFun ho r) c
  have o00 := o 0 0
  have o01 := o 0 1
  have o02 := o 0 2
  have o11 := o 1 1
  have o12 := o 1 2
  have o22 := o 2 2
  simp [M3.mat, Matrix.mul_apply, Fin.sum_univ_succ] at o00 o01 o02 o11 o12 o22
  refine ⟨⟨by linear_combination o00, by linear_combination o11, by linear_combination o22, by linear_combination o01, by linear_combination o02, by linear_combination o12⟩, ?_⟩
  refine ⟨?_, ?_, ?_, ?_, ?_, ?_, ?_, ?_, ?_⟩ <;> grind


theorem half_div_sqrt {t : ℝ} (ht : 0 < t) : 4 * ((1 / 2) / Real.sqrt t) * ((1 / 2) / Real.sqrt t) * t = 1 := by
  have hs := Real.mul_self_sqrt ht.le
  have hp := (Real.sqrt_pos.mpr ht).ne'
  field_simp
  linear_combination -4 * hs

/-- `nx_quaternion_from_R` of a rotation is a unit quaternion and `nx_quaternion_to_R` of it
is the rotation. -/
theorem c58_to_R_from_R (R : M3 ℝ) (h : IsRotation R.mat) :
    quatToR (quatFromR Real.sqrt R) = R ∧
      quatDot (quatFromR Real.sqrt R) (quatFromR Real.sqrt R) = 1 := by
  obtain ⟨⟨o00, o11, o22, o01, o02, o12⟩, c0, c1, c2, c3, c4, c5, c6, c7, c8⟩ := rotation_eqs h
  obtain ⟨a0, a1, a2, a3, a4, a5, a6, a7, a8⟩ := R
  simp only at *
  unfold quatFromR
  simp only
  split
  · rename_i hb
    have hs := half_div_sqrt (t := a0 + a4 + a8 + 1) (by linarith)
    generalize (1 / 2) / Real.sqrt _ = s at hs ⊢
    simp only [quatToR, quatDot, M3.mk.injEq]
    clear hb
    grind
  · rename_i hb0
    split
    · rename_i hb
      have hs := half_div_sqrt (t := a0 - a4 - a8 + 1) (by linarith [hb.1, hb.2])
      generalize (1 / 2) / Real.sqrt _ = s at hs ⊢
      simp only [quatToR, quatDot, M3.mk.injEq]
      clear hb hb0
      grind
    · rename_i hb1
      split
      · rename_i hb
        have h1 : a0 ≤ a4 := by
          by_contra hc
          exact hb1 ⟨not_le.mp hc, lt_trans hb (not_le.mp hc)⟩
        have hs := half_div_sqrt (t := -a0 + a4 - a8 + 1) (by linarith)
        generalize (1 / 2) / Real.sqrt _ = s at hs ⊢
        simp only [quatToR, quatDot, M3.mk.injEq]
        clear hb hb0 hb1 h1
        grind
      · rename_i hb
        have h1 : a0 ≤ a8 := by
          by_contra hc
          exact hb1 ⟨lt_of_le_of_lt (not_lt.mp hb) (not_le.mp hc), not_le.mp hc⟩
        have hs := half_div_sqrt (t := -a0 - a4 + a8 + 1) (by linarith)
        generalize (1 / 2) / Real.sqrt _ = s at hs ⊢
        simp only [quatToR, quatDot, M3.mk.injEq]
        clear hb hb0 hb1 h1
        grind

theorem four_squares {a b c d : ℝ} (h : a ^ 2 + b ^ 2 + c ^ 2 + d ^ 2 = 0) : a = 0 ∧ b = 0 ∧ c = 0 ∧ d = 0 := by
  have h0 := sq_nonneg a
  have h1 := sq_nonneg b
  have h2 := sq_nonneg c
  have h3 := sq_nonneg d
  refine ⟨?_, ?_, ?_, ?_⟩ <;> exact pow_eq_zero_iff two_ne_zero |>.mp (by linarith)

theorem quatToR_inj {p q : Q4 ℝ} (hp : quatDot p p = 1) (hq : quatDot q q = 1) (h : quatToR p = quatToR q) :
    p.quat = q.quat ∨ p.quat = -q.quat := by
  obtain ⟨p0, p1, p2, p3⟩ := p
  obtain ⟨q0, q1, q2, q3⟩ := q
  simp only [quatToR, quatDot, M3.mk.injEq] at hp hq h
  obtain ⟨h0, h1, h2, h3, h4, h5, h6, h7, h8⟩ := h
  have hd : (p0 * q0 + p1 * q1 + p2 * q2 + p3 * q3) ^ 2 = 1 := by grind
  have he : (p0 * q0 + p1 * q1 + p2 * q2 + p3 * q3 - 1) * (p0 * q0 + p1 * q1 + p2 * q2 + p3 * q3 + 1) = 0 := by
    linear_combination hd
  rcases mul_eq_zero.mp he with he | he
  · left
    obtain ⟨e0, e1, e2, e3⟩ := four_squares (a := p0 - q0) (b := p1 - q1) (c := p2 - q2) (d := p3 - q3)
      (by linear_combination hp + hq - 2 * he)
    ext <;> simp <;> linarith
  · right
    obtain ⟨e0, e1, e2, e3⟩ := four_squares (a := p0 + q0) (b := p1 + q1) (c := p2 + q2) (d := p3 + q3)
      (by linear_combination hp + hq + 2 * he)
    ext <;> simp <;> linarith

/-- `nx_quaternion_from_R` of the matrix of a unit quaternion is that quaternion or its
negative. -/
theorem c58_from_R_to_R (q : Q4 ℝ) (h : quatDot q q = 1) :
    (quatFromR Real.sqrt (quatToR q)).quat = q.quat ∨ (quatFromR Real.sqrt (quatToR q)).quat = -q.quat :=
  have h1 := c58_to_R_from_R (quatToR q) (c58_to_R_rotation q h)
  quatToR_inj h1.2 h h1.1

example : IsRotation (M3.mat (⟨0, 1, 0, 0, 0, 1, 1, 0, 0⟩ : M3 ℝ)) := by
  constructor
  · ext r c
    fin_cases r <;> fin_cases c <;> simp [M3.mat, Matrix.mul_apply, Fin.sum_univ_succ]
  · rw [← c57_det]
    simp [dmat3Det]

theorem dvec3ToUnit_sq {v : V3 ℝ} (h : v.vec ≠ 0) : dvec3NormSq (dvec3ToUnit Real.sqrt v).1 = 1 := by
  rw [← ((c57_to_unit v).2.2 h).1]
  simp [dvec3NormSq, V3.vec, dotProduct, Fin.sum_univ_succ]
  ring

theorem half_angle (a : ℝ) : Real.cos a = 2 * Real.cos (a * (1 / 2)) ^ 2 - 1 ∧
    Real.sin a = 2 * Real.sin (a * (1 / 2)) * Real.cos (a * (1 / 2)) := by
  have e : a = 2 * (a * (1 / 2)) := by ring
  constructor
  · conv_lhs => rw [e]
    rw [Real.cos_two_mul]
  · conv_lhs => rw [e]
    rw [Real.sin_two_mul]

/-- `nx_quaternion_from_axis_angle` yields a unit quaternion, and its matrix is the one of
`nx_rotation_3d_axis_angle`. -/
theorem c58_axis_angle (axis : V3 ℝ) (angle : ℝ) (h : axis.vec ≠ 0) :
    quatDot (quatFromAxisAngle Real.sqrt Real.cos Real.sin axis angle)
      (quatFromAxisAngle Real.sqrt Real.cos Real.sin axis angle) = 1 ∧
    quatToR (quatFromAxisAngle Real.sqrt Real.cos Real.sin axis angle) =
      rotationAxisAngle Real.sqrt Real.cos Real.sin axis angle := by
  have hn := dvec3ToUnit_sq h
  unfold quatFromAxisAngle rotationAxisAngle
  generalize (dvec3ToUnit Real.sqrt axis).1 = n at hn ⊢
  obtain ⟨n0, n1, n2⟩ := n
  simp only [dvec3NormSq] at hn
  split
  · rename_i h0
    subst h0
    simp [quatDot, quatToR]
  · obtain ⟨hc, hs⟩ := half_angle angle
    have h1 := Real.sin_sq_add_cos_sq (angle * (1 / 2))
    simp only [hc, hs]
    generalize Real.cos (angle * (1 / 2)) = c at h1 ⊢
    generalize Real.sin (angle * (1 / 2)) = s at h1 ⊢
    simp only [quatDot, quatToR, M3.mk.injEq]
    clear hc hs
    grind

/-! ## C59: rotation matrices -/

theorem rotX_rotation (a : ℝ) : IsRotation (rotX a) := by
  have h := Real.sin_sq_add_cos_sq a
  constructor
  · ext r c
    fin_cases r <;> fin_cases c <;> simp [rotX, Matrix.mul_apply, Fin.sum_univ_succ] <;> grind
  · simp [rotX, Matrix.det_fin_three]
    grind

theorem rotY_rotation (a : ℝ) : IsRotation (rotY a) := by
  have h := Real.sin_sq_add_cos_sq a
  constructor
  · ext r c
    fin_cases r <;> fin_cases c <;> simp [rotY, Matrix.mul_apply, Fin.sum_univ_succ] <;> grind
  · simp [rotY, Matrix.det_fin_three]
    grind

theorem rotZ_rotation (a : ℝ) : IsRotation (rotZ a) := by
  have h := Real.sin_sq_add_cos_sq a
  constructor
  · ext r c
    fin_cases r <;> fin_cases c <;> simp [rotZ, Matrix.mul_apply, Fin.sum_univ_succ] <;> grind
  · simp [rotZ, Matrix.det_fin_three]
    grind

theorem IsRotation.mul {K : Type} [CommRing K] {A B : Matrix (Fin 3) (Fin 3) K} (ha : IsRotation A) (hb : IsRotation B) :
    IsRotation (A * B) := by
  constructor
  · rw [Matrix.transpose_mul, Matrix.mul_assoc, ← Matrix.mul_assoc B, hb.1, Matrix.one_mul, ha.1]
  · rw [Matrix.det_mul, ha.2, hb.2, mul_one]

/-- `nx_rotation_3d_RzRyRx` is the product of the rotations about the third axis by `gamma`,
the second by `beta` and the first by `alpha`, hence a rotation. -/
theorem c59_euler_zyx (a b g : ℝ) :
    (rotationRzRyRx Real.cos Real.sin a b g).mat = rotZ g * rotY b * rotX a ∧
    IsRotation (rotationRzRyRx Real.cos Real.sin a b g).mat := by
  have e : (rotationRzRyRx Real.cos Real.sin a b g).mat = rotZ g * rotY b * rotX a := by
    ext r c
    fin_cases r <;> fin_cases c <;>
      simp [rotationRzRyRx, rotX, rotY, rotZ, M3.mat, Matrix.mul_apply, Fin.sum_univ_succ] <;> ring
  exact ⟨e, e ▸ ((rotZ_rotation g).mul (rotY_rotation b)).mul (rotX_rotation a)⟩

/-- `nx_rotation_3d_RxRyRz` is the product in the other order, hence a rotation. -/
theorem c59_euler_xyz (a b g : ℝ) :
    (rotationRxRyRz Real.cos Real.sin a b g).mat = rotX a * rotY b * rotZ g ∧
    IsRotation (rotationRxRyRz Real.cos Real.sin a b g).mat := by
  have e : (rotationRxRyRz Real.cos Real.sin a b g).mat = rotX a * rotY b * rotZ g := by
    ext r c
    fin_cases r <;> fin_cases c <;>
      simp [rotationRxRyRz, rotX, rotY, rotZ, M3.mat, Matrix.mul_apply, Fin.sum_univ_succ] <;> ring
  exact ⟨e, e ▸ ((rotX_rotation a).mul (rotY_rotation b)).mul (rotZ_rotation g)⟩

/-- The two orders are inverse to each other when the angles are negated. -/
theorem c59_euler_inverse (a b g : ℝ) :
    (rotationRzRyRx Real.cos Real.sin (-a) (-b) (-g)).mat * (rotationRxRyRz Real.cos Real.sin a b g).mat = 1 := by
  rw [(c59_euler_zyx _ _ _).1, (c59_euler_xyz _ _ _).1]
  have ex : rotX (-a) = (rotX a).transpose := by
    ext r c
    fin_cases r <;> fin_cases c <;> simp [rotX]
  have ey : rotY (-b) = (rotY b).transpose := by
    ext r c
    fin_cases r <;> fin_cases c <;> simp [rotY]
  have ez : rotZ (-g) = (rotZ g).transpose := by
    ext r c
    fin_cases r <;> fin_cases c <;> simp [rotZ]
  have e : (rotZ g).transpose * (rotY b).transpose * (rotX a).transpose = (rotX a * rotY b * rotZ g).transpose := by
    rw [Matrix.transpose_mul, Matrix.transpose_mul, Matrix.mul_assoc]
  rw [ex, ey, ez, e]
  exact mul_eq_one_comm.mp ((((rotX_rotation a).mul (rotY_rotation b)).mul (rotZ_rotation g)).1)

/-- `nx_rotation_3d_axis_angle` rotates every vector about the given nonzero axis, by the
formula of Rodrigues; it is a rotation and leaves the axis fixed. -/
theorem c59_axis_angle (axis : V3 ℝ) (theta : ℝ) (h : axis.vec ≠ 0) :
    (∀ v, (rotationAxisAngle Real.sqrt Real.cos Real.sin axis theta).mat.mulVec v =
      rodrigues ((1 / Real.sqrt (axis.vec ⬝ᵥ axis.vec)) • axis.vec) theta v) ∧
    IsRotation (rotationAxisAngle Real.sqrt Real.cos Real.sin axis theta).mat ∧
    (rotationAxisAngle Real.sqrt Real.cos Real.sin axis theta).mat.mulVec axis.vec = axis.vec := by
  have hu := c57_to_unit axis
  have hu2 := hu.2.2 h
  have hn := dvec3ToUnit_sq h
  have hne : (dvec3ToUnit Real.sqrt axis).2 ≠ 0 := by
    intro h0
    rw [h0, zero_smul] at hu2
    exact h hu2.2
  have hunit : (1 / Real.sqrt (axis.vec ⬝ᵥ axis.vec)) • axis.vec = (dvec3ToUnit Real.sqrt axis).1.vec := by
    rw [← hu.1]
    conv_lhs => rw [hu2.2]
    rw [smul_smul, one_div_mul_cancel hne, one_smul]
  refine ⟨?_, ?_, ?_⟩
  · intro v
    rw [hunit]
    unfold rotationAxisAngle rodrigues
    generalize (dvec3ToUnit Real.sqrt axis).1 = n
    rw [cross_apply]
    ext r
    fin_cases r <;>
      simp [M3.mat, V3.vec, Matrix.mulVec, dotProduct, Fin.sum_univ_succ, Matrix.vecHead, Matrix.vecTail] <;> ring
  · have h1 := c58_axis_angle axis theta h
    rw [← h1.2]
    exact c58_to_R_rotation _ h1.1
  · conv_lhs => rw [hu2.2]
    conv_rhs => rw [hu2.2]
    rw [Matrix.mulVec_smul]
    congr 1
    unfold rotationAxisAngle
    generalize (dvec3ToUnit Real.sqrt axis).1 = n at hn ⊢
    simp only [dvec3NormSq] at hn
    ext r
    fin_cases r <;>
      simp [M3.mat, V3.vec, Matrix.mulVec, dotProduct, Fin.sum_univ_succ] <;> grind

/-- For the zero vector as axis the result is not a rotation. -/
theorem c59_axis_angle_zero :
    ¬ IsRotation (rotationAxisAngle Real.sqrt Real.cos Real.sin ⟨0, 0, 0⟩ (Real.pi / 2)).mat := by
  intro h
  have := h.2
  rw [← c57_det] at this
  simp [rotationAxisAngle, dvec3ToUnit, dvec3NormSq, dmat3Det] at this

end Nx
