import Mathlib.Algebra.Order.Field.Basic
import Mathlib.Tactic.Positivity
import Verif.Model.GlProjection
import Verif.Props.Mat

/-!
# C136: the OpenGL projection is the pinhole camera

Clip coordinates are the product of the matrix and the homogeneous coordinates of a point, normalised device coordinates the
quotient by the fourth one, and the viewport maps the interval from -1 to 1 to the width and height of the window.
-/

namespace Nx

section

variable {K : Type} [Field K]

/-- Clip coordinates of a point. -/
def clipCoords (P : M4 K) (x y z : K) : Fin 4 → K := P.mat.mulVec (homog ![x, y, z])

/-- Normalised device coordinates of a point. -/
def ndc (P : M4 K) (x y z : K) (i : Fin 3) : K := clipCoords P x y z i.castSucc / clipCoords P x y z 3

/-- The position in a window of a given size of a normalised device coordinate. -/
def toWindow (size c : K) : K := (c + 1) / 2 * size

theorem glPerspective_clip {Q P : M4 K} {fx fy near far w h : K} (hP : glPerspective (some Q) fx fy near far w h = .ok P)
    (x y z : K) : clipCoords P x y z = ![2 * fx / w * x, 2 * fy / h * y,
      -(far + near) / (far - near) * z + -2 * near * far / (far - near), -z] := by
  cases hP
  ext i
  fin_cases i <;> simp [clipCoords, M4.mat, homog, Matrix.mulVec, dotProduct, Fin.sum_univ_succ]

/-- The previous contents of the array do not matter, a missing array is refused. -/
theorem c136_total (Q : Option (M4 K)) (fx fy near far w h : K) :
    (Q = none → glPerspective Q fx fy near far w h = .fatal) ∧
    (∀ A, Q = some A → ∃ P, glPerspective Q fx fy near far w h = .ok P ∧
      ∀ B, glPerspective (some B) fx fy near far w h = .ok P) := by
  constructor
  · rintro rfl
    rfl
  · rintro A rfl
    exact ⟨_, rfl, fun B => rfl⟩

/-- The projection and the viewport give the image of the pinhole camera with focal lengths `fx` and `fy`, that looks along the
negative third axis and has its principal point in the middle of the window. -/
theorem c136_pinhole [CharZero K] {Q P : M4 K} {fx fy near far w h : K} (hP : glPerspective (some Q) fx fy near far w h = .ok P)
    (hw : w ≠ 0) (hh : h ≠ 0) {x y z : K} (hz : z ≠ 0) :
    toWindow w (ndc P x y z 0) = fx * x / -z + w / 2 ∧ toWindow h (ndc P x y z 1) = fy * y / -z + h / 2 := by
  have h2 : (2 : K) ≠ 0 := two_ne_zero
  have hz' : -z ≠ 0 := neg_ne_zero.mpr hz
  unfold toWindow ndc
  rw [glPerspective_clip hP]
  constructor
  · show (2 * fx / w * x / -z + 1) / 2 * w = _
    field_simp
  · show (2 * fy / h * y / -z + 1) / 2 * h = _
    field_simp

/-- The near plane has depth -1, the far plane depth 1. -/
theorem c136_planes {Q P : M4 K} {fx fy near far w h : K} (hP : glPerspective (some Q) fx fy near far w h = .ok P)
    (hn : near ≠ 0) (hf : far ≠ 0) (hnf : far ≠ near) (x y : K) :
    ndc P x y (-near) 2 = -1 ∧ ndc P x y (-far) 2 = 1 := by
  have hd : far - near ≠ 0 := sub_ne_zero.mpr hnf
  unfold ndc
  rw [glPerspective_clip hP, glPerspective_clip hP]
  constructor
  · show (-(far + near) / (far - near) * -near + -2 * near * far / (far - near)) / - -near = -1
    field_simp
    ring
  · show (-(far + near) / (far - near) * -far + -2 * near * far / (far - near)) / - -far = 1
    field_simp
    ring

/-- `nx_gl_projection_to_mvp`: the product of the matrices that are given, in the order projection, view, model. -/
theorem c136_mvp {L : Type} (cast : K → L) (A : M4 L) (P : M4 K) (M V : Option (M4 K)) :
    ∃ R : M4 K, glToMvp cast (some A) M V (some P) = .ok (m4Cast cast R) ∧
      R.mat = P.mat * (V.map M4.mat).getD 1 * (M.map M4.mat).getD 1 := by
  refine ⟨_, rfl, ?_⟩
  cases V <;> cases M <;> simp [c57_mul4]

/-- A point of a model is first moved by the model matrix, then by the view matrix, then projected. -/
theorem c136_mvp_point {L : Type} (cast : K → L) (A : M4 L) (P M V : M4 K) (v : Fin 4 → K) :
    ∃ R : M4 K, glToMvp cast (some A) (some M) (some V) (some P) = .ok (m4Cast cast R) ∧
      R.mat.mulVec v = P.mat.mulVec (V.mat.mulVec (M.mat.mulVec v)) := by
  obtain ⟨R, e, h⟩ := c136_mvp cast A P (some M) (some V)
  refine ⟨R, e, ?_⟩
  rw [h]
  simp [Matrix.mulVec_mulVec, Matrix.mul_assoc]

omit [Field K] in
/-- The conversion to `GLfloat` acts on each entry of the matrix. -/
theorem c136_cast {L : Type} (cast : K → L) (R : M4 K) (i j : Fin 4) : (m4Cast cast R).mat i j = cast (R.mat i j) := by
  fin_cases i <;> fin_cases j <;> rfl

/-- Without an array for the result or without a projection the function stops. -/
theorem c136_mvp_null {L : Type} (cast : K → L) (A : Option (M4 L)) (M V P : Option (M4 K)) :
    glToMvp cast A M V P = .fatal ↔ A = none ∨ P = none := by
  cases A <;> cases P <;> simp [glToMvp]

end

section

variable {K : Type} [Field K] [LinearOrder K] [IsStrictOrderedRing K]

/-- The depth of a point between the planes is between -1 and 1, and only of those. -/
theorem c136_depth_range {Q P : M4 K} {fx fy near far w h : K} (hP : glPerspective (some Q) fx fy near far w h = .ok P)
    (hn : 0 < near) (hnf : near < far) (x y : K) {z : K} (hz : z < 0) :
    (-1 ≤ ndc P x y z 2 ∧ ndc P x y z 2 ≤ 1) ↔ (near ≤ -z ∧ -z ≤ far) := by
  have hd : 0 < far - near := sub_pos.mpr hnf
  have hz' : 0 < -z := neg_pos.mpr hz
  have hf : 0 < far := hn.trans hnf
  have e : ndc P x y z 2 = ((far + near) * -z - 2 * near * far) / ((far - near) * -z) := by
    unfold ndc
    rw [glPerspective_clip hP]
    show (-(far + near) / (far - near) * z + -2 * near * far / (far - near)) / -z = _
    have := hd.ne'
    have := hz'.ne'
    field_simp
    ring
  rw [e]
  have hp : 0 < (far - near) * -z := mul_pos hd hz'
  rw [le_div_iff₀ hp, div_le_iff₀ hp]
  constructor
  · rintro ⟨h1, h2⟩
    constructor
    · have : far * near ≤ far * -z := by nlinarith
      exact le_of_mul_le_mul_left this hf
    · have : near * -z ≤ near * far := by nlinarith
      exact le_of_mul_le_mul_left this hn
  · rintro ⟨h1, h2⟩
    constructor
    · nlinarith [mul_le_mul_of_nonneg_left h1 hf.le]
    · nlinarith [mul_le_mul_of_nonneg_left h2 hn.le]

/-- Farther points have greater depth. -/
theorem c136_depth_order {Q P : M4 K} {fx fy near far w h : K} (hP : glPerspective (some Q) fx fy near far w h = .ok P)
    (hn : 0 < near) (hnf : near < far) (x y x' y' : K) {z z' : K} (hz : z < 0) (hz' : z' < 0) :
    ndc P x y z 2 < ndc P x' y' z' 2 ↔ -z < -z' := by
  have hd : 0 < far - near := sub_pos.mpr hnf
  have hf : 0 < far := hn.trans hnf
  have e : ∀ x y z : K, z < 0 → ndc P x y z 2 = (far + near) / (far - near) - 2 * near * far / (far - near) / -z := by
    intro x y z hz
    unfold ndc
    rw [glPerspective_clip hP]
    show (-(far + near) / (far - near) * z + -2 * near * far / (far - near)) / -z = _
    have := hd.ne'
    have := hz.ne
    field_simp
    ring
  rw [e x y z hz, e x' y' z' hz', sub_lt_sub_iff_left]
  have hc : 0 < 2 * near * far / (far - near) := by positivity
  exact div_lt_div_iff_of_pos_left hc (neg_pos.mpr hz') (neg_pos.mpr hz)

/-- A point in front of the camera is inside the clip volume exactly when the pinhole camera sees it in the window and it lies
between the planes. -/
theorem c136_visible {Q P : M4 K} {fx fy near far w h : K} (hP : glPerspective (some Q) fx fy near far w h = .ok P)
    (hn : 0 < near) (hnf : near < far) (hw : 0 < w) (hh : 0 < h) {x y z : K} (hz : z < 0) :
    (∀ i, -1 ≤ ndc P x y z i ∧ ndc P x y z i ≤ 1) ↔
      (0 ≤ fx * x / -z + w / 2 ∧ fx * x / -z + w / 2 ≤ w) ∧ (0 ≤ fy * y / -z + h / 2 ∧ fy * y / -z + h / 2 ≤ h) ∧
      (near ≤ -z ∧ -z ≤ far) := by
  obtain ⟨h0, h1⟩ := c136_pinhole hP hw.ne' hh.ne' (x := x) (y := y) hz.ne
  have hwin : ∀ {s c : K}, 0 < s → ((-1 ≤ c ∧ c ≤ 1) ↔ (0 ≤ toWindow s c ∧ toWindow s c ≤ s)) := by
    intro s c hs
    unfold toWindow
    constructor
    · rintro ⟨a, b⟩
      constructor
      · have : 0 ≤ (c + 1) / 2 := by linarith
        positivity
      · have : (c + 1) / 2 ≤ 1 := by linarith
        nlinarith
    · rintro ⟨a, b⟩
      constructor
      · have := nonneg_of_mul_nonneg_left a hs
        linarith
      · have : (c + 1) / 2 * s ≤ 1 * s := by linarith
        have := le_of_mul_le_mul_right this hs
        linarith
  rw [← h0, ← h1, ← hwin hw, ← hwin hh, ← c136_depth_range hP hn hnf x y hz]
  constructor
  · intro h
    exact ⟨h 0, h 1, h 2⟩
  · rintro ⟨a, b, c⟩ i
    fin_cases i
    · exact a
    · exact b
    · exact c

/-- A camera that meets the hypotheses, and a point that it sees. -/
example : ∃ P : M4 ℚ, glPerspective (some ⟨9, 9, 9, 9, 9, 9, 9, 9, 9, 9, 9, 9, 9, 9, 9, 9⟩) 500 400 (1 / 10) 100 640 480 = .ok P ∧
    toWindow 640 (ndc P 1 2 (-10) 0) = 370 ∧ toWindow 480 (ndc P 1 2 (-10) 1) = 320 := by
  refine ⟨_, rfl, ?_, ?_⟩
  · rw [(c136_pinhole (Q := dmat4Eye) (h := (480 : ℚ)) (fy := 400) rfl (by norm_num) (by norm_num) (by norm_num)).1]
    norm_num
  · rw [(c136_pinhole (Q := dmat4Eye) (w := (640 : ℚ)) (fx := 500) rfl (by norm_num) (by norm_num) (by norm_num)).2]
    norm_num

end

end Nx
