import Verif.Model.SmallGeometry
import Verif.Props.Rotation

/-! # C57, C58, C59: further functions on small matrices and vectors -/

namespace Nx

variable {K : Type} [Field K]

/-- C59. `nx_rotation_3d_invert` transposes; for a rotation this is the inverse, and a rotation again. -/
theorem c59_invert (R : M3 K) : (rotationInvert R).mat = R.mat.transpose ∧ rotationInvert (rotationInvert R) = R ∧
    (IsRotation R.mat → R.mat * (rotationInvert R).mat = 1 ∧ (rotationInvert R).mat * R.mat = 1 ∧ IsRotation (rotationInvert R).mat) := by
  have e : (rotationInvert R).mat = R.mat.transpose := by
    ext i j
    fin_cases i <;> fin_cases j <;> rfl
  refine ⟨e, rfl, fun h => ?_⟩
  have h2 : R.mat.transpose * R.mat = 1 := by
    rw [mul_eq_one_comm]
    exact h.1
  rw [e]
  refine ⟨h.1, h2, ?_, ?_⟩
  · rw [Matrix.transpose_transpose]
    exact h2
  · rw [Matrix.det_transpose]
    exact h.2

example : IsRotation (M3.mat (⟨0, 1, 0, -1, 0, 0, 0, 0, 1⟩ : M3 ℚ)) ∧
    rotationInvert (⟨0, 1, 0, -1, 0, 0, 0, 0, 1⟩ : M3 ℚ) = ⟨0, -1, 0, 1, 0, 0, 0, 0, 1⟩ := by
  refine ⟨⟨?_, ?_⟩, rfl⟩
  · ext i j
    fin_cases i <;> fin_cases j <;> simp [M3.mat, Matrix.mul_apply, Fin.sum_univ_succ]
  · simp [M3.mat, Matrix.det_fin_three]

/-- C58. `nx_quaternion_to_Rt` moves points by the rotation of the first four numbers, then by the last three. -/
theorem c58_to_Rt {q : List K} {a b c d x y z : K} (hq : q = [a, b, c, d, x, y, z]) (hu : a * a + b * b + c * c + d * d = 1) :
    ∃ R t, quatToRt q = .ok (R, t) ∧ IsRotation R.mat ∧ t.vec = ![x, y, z] ∧
      ∀ v : V3 K, R.mat.mulVec v.vec = (quatRotate ⟨a, b, c, d⟩ v).vec := by
  subst hq
  refine ⟨quatToR ⟨a, b, c, d⟩, ⟨x, y, z⟩, rfl, c58_to_R_rotation _ hu, rfl, fun v => ?_⟩
  exact (c58_rotate_matrix ⟨a, b, c, d⟩ v hu).symm

/-- C58. With less than seven numbers the array is left. -/
theorem c58_to_Rt_short {q : List K} (hq : q.length < 7) : quatToRt q = .ub := by
  match q, hq with
  | [], _ => rfl
  | [_], _ => rfl
  | [_, _], _ => rfl
  | [_, _, _], _ => rfl
  | [_, _, _, _], _ => rfl
  | [_, _, _, _, _], _ => rfl
  | [_, _, _, _, _, _], _ => rfl

example : quatToRt [0, 1, 0, 0, 5, 6, (7 : ℚ)] = .ok (⟨1, 0, 0, 0, -1, 0, 0, 0, -1⟩, ⟨5, 6, 7⟩) := by
  norm_num [quatToRt, readAt, quatToR]

/-- C57. `nx_svec4h_to_euclidean` gives the point with the same direction whose last coordinate is one, if there is one. -/
theorem c57_to_euclidean [DecidableEq K] (v : Q4 K) : (svec4hToEuclidean v).2 = v.e3 ∧
    ((svec4hToEuclidean v).1 = none ↔ v.e3 = 0) ∧
    ∀ u : Q4 K, (svec4hToEuclidean v).1 = some u ↔ u.e3 = 1 ∧ v.e3 ≠ 0 ∧ v.e0 = v.e3 * u.e0 ∧ v.e1 = v.e3 * u.e1 ∧ v.e2 = v.e3 * u.e2 := by
  refine ⟨rfl, ?_, ?_⟩
  · unfold svec4hToEuclidean
    by_cases h : v.e3 = 0 <;> simp [h]
  · intro u
    unfold svec4hToEuclidean
    by_cases h : v.e3 = 0
    · simp [h]
    · simp only [if_neg h, Option.some.injEq]
      constructor
      · rintro rfl
        refine ⟨rfl, h, ?_, ?_, ?_⟩ <;> simp only <;> field_simp
      · rintro ⟨h1, -, h2, h3, h4⟩
        cases u
        simp only at *
        subst h1
        rw [h2, h3, h4]
        congr 1 <;> field_simp

example : (svec4hToEuclidean (⟨2, 4, 6, 2⟩ : Q4 ℚ)).1 = some ⟨1, 2, 3, 1⟩ := by
  norm_num [svec4hToEuclidean]

/-- C57. The squared norm is the sum of the squares of the first `n` numbers, and nothing else is read. -/
theorem c57_norm_sq {n : Nat} {v : List K} :
    (n ≤ v.length → dvecNormSq n v = .ok ((v.take n).map fun x => x * x).sum) ∧ (v.length < n → dvecNormSq n v = .ub) := by
  constructor
  · intro h
    obtain ⟨s, e, hs⟩ := forLoop_spec (n := n) (body := fun i (s : K) => do
      let x ← readAt v i
      pure (s + x * x)) (i0 := 0) (s := 0) (fun i s => s = ((v.take i).map fun x => x * x).sum) (by omega) (by simp) (by
        rintro i s _ hi rfl
        rw [readAt_ok (by omega)]
        refine ⟨_, rfl, ?_⟩
        rw [List.take_add_one, List.getElem?_eq_getElem (by omega), List.map_append, List.sum_append]
        simp only [Option.toList_some, List.map_cons, List.map_nil, List.sum_cons, List.sum_nil, add_zero])
    unfold dvecNormSq
    rw [e, hs]
  · intro h
    unfold dvecNormSq
    suffices ∀ k i (s : K), v.length - i = k → i ≤ v.length → forLoop n (fun i (s : K) => do
        let x ← readAt v i
        pure (s + x * x)) i s = .ub from this _ 0 0 rfl (by omega)
    intro k
    induction k with
    | zero =>
      intro i s hk hi
      rw [forLoop, if_pos (by omega), readAt, List.getElem?_eq_none (by omega)]
      rfl
    | succ k ih =>
      intro i s hk hi
      rw [forLoop, if_pos (by omega), readAt_ok (by omega)]
      exact ih (i + 1) _ (by omega) (by omega)

/-- C57. The norm is the Euclidean one. -/
theorem c57_norm {v : List ℝ} : ∃ r, dvecNorm Real.sqrt v.length v = .ok r ∧ 0 ≤ r ∧ r ^ 2 = (v.map fun x => x ^ 2).sum := by
  refine ⟨_, ?_, Real.sqrt_nonneg _, Real.sq_sqrt ?_⟩
  · unfold dvecNorm
    rw [c57_norm_sq.1 (Nat.le_refl _), List.take_length]
    simp only [← sq]
    rfl
  · apply List.sum_nonneg
    intro x hx
    obtain ⟨y, -, rfl⟩ := List.mem_map.mp hx
    positivity

/-- C57. `nx_dvec_axpy` adds a multiple to the first `n` numbers, also of the array itself, and leaves the others. -/
theorem c57_axpy {n : Nat} {y x : List K} (a : K) (hy : n ≤ y.length) (hx : n ≤ x.length) :
    ∃ z, dvecAxpy n y a x = .ok z ∧ z.length = y.length ∧
      ∀ i, z[i]? = if i < n then (do pure ((← y[i]?) + a * (← x[i]?))) else y[i]? := by
  obtain ⟨z, e, h1, h2⟩ := forLoop_spec (n := n) (body := fun i (y : List K) => do
    let yi ← readAt y i
    let xi ← readAt x i
    writeAt y i (yi + a * xi)) (i0 := 0) (s := y)
    (fun i z => z.length = y.length ∧ ∀ j, z[j]? = if j < i then (do pure ((← y[j]?) + a * (← x[j]?))) else y[j]?) (by omega)
    ⟨rfl, by simp⟩ (by
      rintro i z _ hi ⟨h1, h2⟩
      have hz := h2 i
      rw [if_neg (Nat.lt_irrefl i), List.getElem?_eq_getElem (by omega), List.getElem?_eq_getElem (by omega)] at hz
      rw [readAt_ok (by omega), Res.ok_bind, readAt_ok (by omega), Res.ok_bind, writeAt_ok _ (by omega)]
      refine ⟨_, rfl, by simp [h1], ?_⟩
      intro j
      by_cases hj : j = i
      · subst hj
        rw [List.getElem?_set_self (by omega), if_pos (by omega), List.getElem?_eq_getElem (by omega : j < y.length),
          List.getElem?_eq_getElem (by omega : j < x.length), Option.some.inj hz]
        rfl
      · rw [List.getElem?_set_ne (by omega), h2 j]
        by_cases hj' : j < i
        · rw [if_pos hj', if_pos (by omega)]
        · rw [if_neg hj', if_neg (by omega)])
  exact ⟨z, e, h1, h2⟩

/-- C57. The same for the array itself. -/
theorem c57_axpy_self {n : Nat} {y : List K} (a : K) (hy : n ≤ y.length) :
    dvecAxpySelf n y a = .ok ((y.take n).map (fun v => (1 + a) * v) ++ y.drop n) := by
  obtain ⟨z, e, h1⟩ := forLoop_spec (n := n) (body := fun i (y : List K) => do
    let yi ← readAt y i
    let xi ← readAt y i
    writeAt y i (yi + a * xi)) (i0 := 0) (s := y)
    (fun i z => z = (y.take i).map (fun v => (1 + a) * v) ++ y.drop i) (by omega) (by simp) (by
      rintro i z _ hi rfl
      have hl : ((y.take i).map (fun v => (1 + a) * v)).length = i := by simp; omega
      have hr : readAt ((y.take i).map (fun v => (1 + a) * v) ++ y.drop i) i = .ok y[i] := by
        unfold readAt
        rw [List.getElem?_append_right (by omega), hl, Nat.sub_self, List.getElem?_drop, Nat.add_zero, List.getElem?_eq_getElem (by omega)]
      rw [hr, Res.ok_bind, Res.ok_bind, writeAt_ok _ (by rw [List.length_append, hl, List.length_drop]; omega)]
      refine ⟨_, rfl, ?_⟩
      rw [List.set_append_right _ _ (by omega), hl, Nat.sub_self, List.drop_eq_getElem_cons (by omega : i < y.length), List.set_cons_zero,
        List.take_add_one, List.getElem?_eq_getElem (by omega : i < y.length)]
      simp only [Option.toList_some, List.map_append, List.map_cons, List.map_nil, List.append_assoc, List.singleton_append]
      congr 2
      ring)
  unfold dvecAxpySelf
  rw [e, h1]

example : dvecAxpy 2 [1, 2, 3] 10 [1, 1, (1 : ℚ)] = .ok [11, 12, 3] := by decide +kernel

/-- C57. The inverse of a `float` matrix is the exact one, rounded once. -/
theorem c57_sdmat3_inv [DecidableEq K] (rd : K → K) (A : M3 K) (h : A.mat.det ≠ 0) (i j : Fin 3) :
    (sdmat3Inv rd A).1.mat i j = rd (A.mat⁻¹ i j) ∧ (sdmat3Inv rd A).2 = A.mat.det := by
  have e : A.mat⁻¹ = (dmat3Inv A).1.mat := Matrix.inv_eq_right_inv (c57_inv A h).1
  refine ⟨?_, c57_inv_det A⟩
  rw [e]
  fin_cases i <;> fin_cases j <;> rfl

end Nx
