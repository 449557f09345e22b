import Verif.Spec.Pinhole
import Verif.Lemmas.Dlt
import Verif.Props.Essential
import Mathlib.Analysis.Real.Sqrt
import Mathlib.Topology.MetricSpace.ProperSpace.Lemmas
import Mathlib.Topology.Order.Compact
import Mathlib.Topology.Instances.Real.Lemmas

/-!
# C73: pinhole cameras
-/

namespace Nx

section
variable {K : Type} [Field K]

/-- `nx_pinhole_projection_from_krt` computes `K [R | t]`; a null pointer is the identity or zero. -/
theorem c73_krt (k R : Option (M3 K)) (t : Option (V3 K)) (hk : ∀ k', k = some k' → Intrinsic k') (X : Fin 3 → K) :
    (projectionFromKrt k R t).mat.mulVec (homog X)
      = ((k.map M3.mat).getD 1).mulVec (((R.map M3.mat).getD 1).mulVec X + (t.map V3.vec).getD 0) := by
  have hk' : ∀ k', k = some k' → k'.e1 = 0 ∧ k'.e2 = 0 ∧ k'.e5 = 0 ∧ k'.e8 = 1 := hk
  have one : (1 : Matrix (Fin 3) (Fin 3) K) = M3.mat ⟨1, 0, 0, 0, 1, 0, 0, 0, 1⟩ := by
    ext i j
    fin_cases i <;> fin_cases j <;> simp [M3.mat]
  have zero : (0 : Fin 3 → K) = V3.vec ⟨0, 0, 0⟩ := by
    ext i
    fin_cases i <;> simp [V3.vec]
  have key : ∀ (k R : M3 K) (t : V3 K), k.e1 = 0 ∧ k.e2 = 0 ∧ k.e5 = 0 ∧ k.e8 = 1 →
      (projectionFromKrt (some k) (some R) (some t)).mat.mulVec (homog X) = k.mat.mulVec (R.mat.mulVec X + t.vec) := by
    rintro k R t ⟨h1, h2, h5, h8⟩
    ext i
    fin_cases i <;>
      simp [projectionFromKrt, dmat3MulUa, M34.mat, M3.mat, V3.vec, homog, Matrix.mulVec, dotProduct, Fin.sum_univ_succ, h1,
        h2, h5, h8] <;> ring
  cases k <;> cases R <;> cases t
  all_goals simp only [Option.map_none, Option.map_some, Option.getD_none, Option.getD_some, one, zero]
  all_goals first
    | exact key _ _ _ (hk' _ rfl)
    | exact key ⟨1, 0, 0, 0, 1, 0, 0, 0, 1⟩ _ _ ⟨rfl, rfl, rfl, rfl⟩

/-- If the last entry of the intrinsic parameters is not one this is false, also up to scale: the last entry of the product is
missing its factor. -/
theorem c73_krt_scale :
    ∃ (k R : M3 ℚ) (t : V3 ℚ), k.e1 = 0 ∧ k.e2 = 0 ∧ k.e5 = 0 ∧ k.mat.det ≠ 0 ∧ ∃ X : Fin 3 → ℚ, ∀ c : ℚ,
      c ≠ 0 → (projectionFromKrt (some k) (some R) (some t)).mat.mulVec (homog X)
        ≠ c • k.mat.mulVec (R.mat.mulVec X + t.vec) := by
  refine ⟨⟨2, 0, 0, 0, 2, 0, 0, 0, 2⟩, ⟨1, 0, 0, 0, 1, 0, 0, 0, 1⟩, ⟨1, 0, 1⟩, rfl, rfl, rfl, ?_, ![0, 0, 1], ?_⟩
  · simp [M3.mat, Matrix.det_fin_three]
  · intro c hc h
    have e1 : (projectionFromKrt (some ⟨2, 0, 0, 0, 2, 0, 0, 0, 2⟩) (some ⟨1, 0, 0, 0, 1, 0, 0, 0, 1⟩)
        (some ⟨1, 0, 1⟩) : M34 ℚ).mat.mulVec (homog ![0, 0, 1]) = ![2, 0, 3] := by decide +kernel
    have e2 : (⟨2, 0, 0, 0, 2, 0, 0, 0, 2⟩ : M3 ℚ).mat.mulVec
        ((⟨1, 0, 0, 0, 1, 0, 0, 0, 1⟩ : M3 ℚ).mat.mulVec ![0, 0, 1] + (⟨1, 0, 1⟩ : V3 ℚ).vec) = ![2, 0, 4] := by
      decide +kernel
    rw [e1, e2] at h
    have h0 := congrFun h 0
    have h2 := congrFun h 2
    simp at h0 h2
    linarith

theorem pinholeScale_eq (P : M34 K) (X : V3 K) : pinholeScale P X = depth P.mat X.vec := by
  simp [pinholeScale, depth, M34.mat, V3.vec, homog, Matrix.mulVec, dotProduct, Fin.sum_univ_succ]
  ring

theorem pinholePoint_eq [DecidableEq K] (P : M34 K) (X : V3 K) (q : K × K) :
    pinholePoint P X = some q ↔ Sees P.mat X.vec q := by
  have h0 : P.mat.mulVec (homog X.vec) 0 = P.e0 * X.e0 + P.e3 * X.e1 + P.e6 * X.e2 + P.e9 := by
    simp [M34.mat, V3.vec, homog, Matrix.mulVec, dotProduct, Fin.sum_univ_succ]
    ring
  have h1 : P.mat.mulVec (homog X.vec) 1 = P.e1 * X.e0 + P.e4 * X.e1 + P.e7 * X.e2 + P.e10 := by
    simp [M34.mat, V3.vec, homog, Matrix.mulVec, dotProduct, Fin.sum_univ_succ]
    ring
  have h2 : P.mat.mulVec (homog X.vec) 2 = pinholeScale P X := (pinholeScale_eq P X).symm
  rw [pinholePoint]
  split
  · rename_i hz
    constructor
    · exact fun h => nomatch h
    · rintro ⟨s, hs, e⟩
      have := congrFun e 2
      rw [h2, hz] at this
      simp [hom2] at this
      exact absurd this.symm hs
  · rename_i hz
    simp only [Option.some.injEq]
    constructor
    · rintro rfl
      refine ⟨pinholeScale P X, hz, ?_⟩
      ext i
      fin_cases i
      · simp only [Fin.zero_eta, h0, hom2, Pi.smul_apply, Matrix.cons_val_zero, smul_eq_mul]
        field_simp
      · simp only [Fin.mk_one, h1, hom2, Pi.smul_apply, Matrix.cons_val_one, Matrix.cons_val_zero, smul_eq_mul]
        field_simp
      · change P.mat.mulVec (homog X.vec) 2 = _
        rw [h2]
        simp [hom2]
    · rintro ⟨s, hs, e⟩
      have e0 := congrFun e 0
      have e1 := congrFun e 1
      have e2 := congrFun e 2
      rw [h0] at e0
      rw [h1] at e1
      rw [h2] at e2
      simp [hom2] at e0 e1 e2
      rw [e0, e1, e2]
      ext
      · field_simp
      · field_simp

/-- The projection of homogeneous coordinates. -/
theorem pinholePointH_eq (P : M34 K) (X : V4 K) : (pinholePointH P X).vec = P.mat.mulVec ![X.e0, X.e1, X.e2, X.e3] := by
  ext i
  fin_cases i <;>
    simp [pinholePointH, M34.mat, V3.vec, Matrix.mulVec, dotProduct, Fin.sum_univ_succ] <;> ring

theorem projectHLoop_ok (P : M34 K) : ∀ (n : Nat) (X : List (V4 K)) (out : List (V3 K)), n ≤ X.length → n ≤ out.length →
    projectHLoop P n X out = .ok ((X.take n).map (pinholePointH P) ++ out.drop n)
  | 0, _, _, _, _ => by simp [projectHLoop]
  | n + 1, [], _, h, _ => by simp at h
  | n + 1, _ :: _, [], _, h => by simp at h
  | n + 1, X :: Xs, _ :: out, h1, h2 => by
    simp only [List.length_cons, Nat.add_le_add_iff_right] at h1 h2
    rw [projectHLoop, projectHLoop_ok P n Xs out h1 h2]
    rfl

/-- `nx_pinhole_project_h` multiplies each of the first `n` points with the matrix. -/
theorem c73_project_h (P : M34 K) (n : Nat) (h0 : 0 < n) (X : List (V4 K)) (out : List (V3 K)) (h1 : n ≤ X.length)
    (h2 : n ≤ out.length) :
    ∃ out', pinholeProjectH P n X out = .ok out' ∧ out'.length = out.length ∧ out'.drop n = out.drop n ∧
      ∀ (i : Nat) (Xi : V4 K), i < n → X[i]? = some Xi →
        ∃ v, out'[i]? = some v ∧ v.vec = P.mat.mulVec ![Xi.e0, Xi.e1, Xi.e2, Xi.e3] := by
  have hl : ((X.take n).map (pinholePointH P)).length = n := by simp [h1]
  refine ⟨_, by rw [pinholeProjectH, if_pos (by omega), Int.toNat_natCast, projectHLoop_ok P n X out h1 h2], ?_, ?_, ?_⟩
  · rw [List.length_append, hl, List.length_drop]
    omega
  · rw [List.drop_left' hl]
  · intro i Xi hi hX
    refine ⟨pinholePointH P Xi, ?_, pinholePointH_eq P Xi⟩
    rw [List.getElem?_append_left (by omega), List.getElem?_map, List.getElem?_take_of_lt hi, hX]
    rfl

end

section
variable {K : Type} [Field K] [LinearOrder K] [IsStrictOrderedRing K]

omit [IsStrictOrderedRing K] in
theorem projectLoop_ok (P : M34 K) : ∀ (n : Nat) (X : List (V3 K)) (out : List (Option (K × K))) (m : Option K),
    n ≤ X.length → n ≤ out.length →
    projectLoop P n X out m = .ok ((X.take n).map (pinholePoint P) ++ out.drop n,
      (X.take n).foldl (fun m X => minAbs m (pinholeScale P X)) m)
  | 0, _, _, _, _, _ => by simp [projectLoop]
  | n + 1, [], _, _, h, _ => by simp at h
  | n + 1, _ :: _, [], _, _, h => by simp at h
  | n + 1, X :: Xs, _ :: out, m, h1, h2 => by
    simp only [List.length_cons, Nat.add_le_add_iff_right] at h1 h2
    rw [projectLoop, projectLoop_ok P n Xs out _ h1 h2]
    rfl

omit [IsStrictOrderedRing K] in
theorem minAbs_some (P : M34 K) : ∀ (l : List (V3 K)) (m : K), ∃ m',
    l.foldl (fun m X => minAbs m (pinholeScale P X)) (some m) = some m' ∧ m' ≤ m ∧
      (∀ X ∈ l, m' ≤ |depth P.mat X.vec|) ∧ (m' = m ∨ ∃ X ∈ l, m' = |depth P.mat X.vec|)
  | [], m => ⟨m, rfl, le_rfl, by simp, .inl rfl⟩
  | X :: l, m => by
    rw [List.foldl_cons, minAbs]
    have e : max (pinholeScale P X) (-pinholeScale P X) = |depth P.mat X.vec| := by rw [pinholeScale_eq]; rfl
    rw [e]
    obtain ⟨m', h1, h2, h3, h4⟩ := minAbs_some P l (if m < |depth P.mat X.vec| then m else |depth P.mat X.vec|)
    refine ⟨m', h1, ?_, ?_, ?_⟩
    · split at h2
      · exact h2
      · rename_i h
        exact le_trans h2 (not_lt.mp h)
    · intro Y hY
      rcases List.mem_cons.mp hY with rfl | hY
      · split at h2
        · rename_i h
          exact le_trans h2 h.le
        · exact h2
      · exact h3 Y hY
    · rcases h4 with h4 | ⟨Y, hY, h4⟩
      · split at h4
        · exact .inl h4
        · exact .inr ⟨X, by simp, h4⟩
      · exact .inr ⟨Y, by simp [hY], h4⟩

omit [IsStrictOrderedRing K] in
theorem minAbs_none (P : M34 K) (X : V3 K) (l : List (V3 K)) : ∃ m',
    (X :: l).foldl (fun m X => minAbs m (pinholeScale P X)) none = some m' ∧
      (∀ Y ∈ X :: l, m' ≤ |depth P.mat Y.vec|) ∧ ∃ Y ∈ X :: l, m' = |depth P.mat Y.vec| := by
  have e : max (pinholeScale P X) (-pinholeScale P X) = |depth P.mat X.vec| := by rw [pinholeScale_eq]; rfl
  rw [List.foldl_cons, minAbs, e]
  obtain ⟨m', h1, h2, h3, h4⟩ := minAbs_some P l |depth P.mat X.vec|
  refine ⟨m', h1, ?_, ?_⟩
  · intro Y hY
    rcases List.mem_cons.mp hY with rfl | hY
    · exact h2
    · exact h3 Y hY
  · rcases h4 with h4 | ⟨Y, hY, h4⟩
    · exact ⟨X, by simp, h4⟩
    · exact ⟨Y, by simp [hY], h4⟩

/-- `nx_pinhole_project` writes the image of each of the first `n` points and returns the smallest absolute depth, if
no point has depth zero. -/
theorem c73_project (P : M34 K) (n : Nat) (h0 : 0 < n) (X : List (V3 K)) (out : List (Option (K × K))) (h1 : n ≤ X.length)
    (h2 : n ≤ out.length) (hz : ∀ Y ∈ X.take n, depth P.mat Y.vec ≠ 0) :
    ∃ out' m, pinholeProject P n X out = .ok (out', m) ∧ out'.length = out.length ∧ out'.drop n = out.drop n ∧
      (∀ (i : Nat) (Xi : V3 K), i < n → X[i]? = some Xi → ∃ q, out'[i]? = some (some q) ∧ Sees P.mat Xi.vec q) ∧
      0 < m ∧ (∀ Y ∈ X.take n, m ≤ |depth P.mat Y.vec|) ∧ ∃ Y ∈ X.take n, m = |depth P.mat Y.vec| := by
  have hl : ((X.take n).map (pinholePoint P)).length = n := by simp [h1]
  have hm : ∃ m', (X.take n).foldl (fun m X => minAbs m (pinholeScale P X)) none = some m' ∧
      (∀ Y ∈ X.take n, m' ≤ |depth P.mat Y.vec|) ∧ ∃ Y ∈ X.take n, m' = |depth P.mat Y.vec| := by
    cases hX : X.take n with
    | nil =>
      have := congrArg List.length hX
      rw [List.length_take, List.length_nil] at this
      omega
    | cons Y l => exact minAbs_none P Y l
  obtain ⟨m, m1, m2, Z, m3, m4⟩ := hm
  have hpos : 0 < m := by rw [m4]; exact abs_pos.mpr (hz Z m3)
  refine ⟨(X.take n).map (pinholePoint P) ++ out.drop n, m, ?_, ?_, ?_, ?_, hpos, m2, Z, m3, m4⟩
  · rw [pinholeProject, if_pos (by omega), Int.toNat_natCast, projectLoop_ok P n X out none h1 h2, m1]
    simp only [Res.bind]
    rw [if_pos hpos]
  · rw [List.length_append, hl, List.length_drop]
    omega
  · rw [List.drop_left' hl]
  · intro i Xi hi hX
    have hmem : Xi ∈ X.take n := List.mem_of_getElem? (i := i) (by rw [List.getElem?_take_of_lt hi, hX])
    cases hq : pinholePoint P Xi with
    | none =>
      rw [pinholePoint] at hq
      split at hq
      · rename_i h
        rw [pinholeScale_eq] at h
        exact absurd h (hz Xi hmem)
      · cases hq
    | some q =>
      refine ⟨q, ?_, (pinholePoint_eq P Xi q).mp hq⟩
      rw [List.getElem?_append_left (by omega), List.getElem?_map, List.getElem?_take_of_lt hi, hX, Option.map_some, hq]

/-- A point of depth zero makes the assertion at the end fail. -/
theorem c73_project_zero (P : M34 K) (n : Nat) (X : List (V3 K)) (out : List (Option (K × K))) (h1 : n ≤ X.length)
    (h2 : n ≤ out.length) (Y : V3 K) (hY : Y ∈ X.take n) (hz : depth P.mat Y.vec = 0) :
    pinholeProject P n X out = .fatal := by
  have h0 : 0 < n := by
    by_contra h
    have : n = 0 := by omega
    subst this
    simp at hY
  have hm : ∃ m', (X.take n).foldl (fun m X => minAbs m (pinholeScale P X)) none = some m' ∧
      (∀ Y ∈ X.take n, m' ≤ |depth P.mat Y.vec|) := by
    cases hX : X.take n with
    | nil =>
      rw [hX] at hY
      simp at hY
    | cons Y l =>
      obtain ⟨m, a, b, -⟩ := minAbs_none P Y l
      exact ⟨m, a, b⟩
  obtain ⟨m, m1, m2⟩ := hm
  have hneg : ¬ 0 < m := by
    have := m2 Y hY
    rw [hz, abs_zero] at this
    exact not_lt.mpr this
  rw [pinholeProject, if_pos (by omega), Int.toNat_natCast, projectLoop_ok P n X out none h1 h2, m1]
  simp only [Res.bind]
  rw [if_neg hneg]

end

/-- The images of a point under two cameras, `[I | 0]` and `[R | t]`, satisfy the epipolar constraint of the essential matrix. -/
theorem c73_epipolar {K : Type} [Field K] (R : M3 K) (t : V3 K) (X : Fin 3 → K) (x xp : K × K)
    (h0 : Sees (projectionFromKrt none none none).mat X x)
    (h1 : Sees (projectionFromKrt none (some R) (some t)).mat X xp) :
    epiForm (essentialFromRt R t).mat x xp = 0 := by
  obtain ⟨s, hs, e⟩ := h0
  obtain ⟨s', hs', e'⟩ := h1
  rw [c73_krt none none none (fun _ h => nomatch h)] at e
  rw [c73_krt none (some R) (some t) (fun _ h => nomatch h)] at e'
  simp only [Option.map_none, Option.map_some, Option.getD_none, Option.getD_some, Matrix.one_mulVec, add_zero] at e e'
  have h := c67_constraint R t X
  rw [e', e, Matrix.mulVec_smul, dotProduct_smul, smul_dotProduct, smul_eq_mul, smul_eq_mul, mul_eq_zero, mul_eq_zero] at h
  rcases h with h | h | h
  · exact absurd h hs
  · exact absurd h hs'
  · exact h

/-- With intrinsic parameters the images satisfy the constraint of every matrix `F` with `K'ᵀ F K = E`. -/
theorem c73_fundamental {K : Type} [Field K] (k kp R : M3 K) (t : V3 K) (hk : Intrinsic k) (hkp : Intrinsic kp)
    (F : Matrix (Fin 3) (Fin 3) K) (hF : kp.mat.transpose * F * k.mat = (essentialFromRt R t).mat) (X : Fin 3 → K)
    (x xp : K × K) (h0 : Sees (projectionFromKrt (some k) none none).mat X x)
    (h1 : Sees (projectionFromKrt (some kp) (some R) (some t)).mat X xp) : epiForm F x xp = 0 := by
  obtain ⟨s, hs, e⟩ := h0
  obtain ⟨s', hs', e'⟩ := h1
  rw [c73_krt (some k) none none (fun _ h => by cases h; exact hk)] at e
  rw [c73_krt (some kp) (some R) (some t) (fun _ h => by cases h; exact hkp)] at e'
  simp only [Option.map_none, Option.map_some, Option.getD_none, Option.getD_some, Matrix.one_mulVec, add_zero] at e e'
  have h := c67_constraint R t X
  rw [← hF, ← Matrix.mulVec_mulVec, ← Matrix.mulVec_mulVec, e, Matrix.dotProduct_mulVec, Matrix.vecMul_transpose, e',
    Matrix.mulVec_smul, dotProduct_smul, smul_dotProduct, smul_eq_mul, smul_eq_mul, mul_eq_zero, mul_eq_zero] at h
  rcases h with h | h | h
  · exact absurd h hs
  · exact absurd h hs'
  · exact h

/-! ## Triangulation -/

section
variable {svd4 : List (Fin 4 → ℝ) → Fin 4 → Fin 4 → ℝ}

/-- The inliers among the first `n` matches, with their positions from `i` on. -/
def inliersFrom {K : Type} (i n : Nat) (cs : List (PMatch K)) : List (PMatch K × Nat) :=
  ((cs.take n).zipIdx i).filter fun c => c.1.inlier

theorem inliersFrom_succ {K : Type} (i n : Nat) (c : PMatch K) (cs : List (PMatch K)) :
    inliersFrom i (n + 1) (c :: cs)
      = if c.inlier then (c, i) :: inliersFrom (i + 1) n cs else inliersFrom (i + 1) n cs := by
  rw [inliersFrom, List.take_succ_cons, List.zipIdx_cons, List.filter_cons]
  rfl

theorem inliersFrom_length {K : Type} : ∀ (n i : Nat) (cs : List (PMatch K)),
    (inliersFrom i n cs).length = ((cs.take n).filter PMatch.inlier).length
  | 0, i, cs => by simp [inliersFrom]
  | n + 1, i, [] => by simp [inliersFrom]
  | n + 1, i, c :: cs => by
    rw [inliersFrom_succ, List.take_succ_cons, List.filter_cons]
    split <;> simp [inliersFrom_length n (i + 1) cs]

theorem triangulateLoop_ok {K : Type} [Field K] [DecidableEq K] (svd4 : List (Fin 4 → K) → Fin 4 → Fin 4 → K) (P0 P1 : M34 K) :
    ∀ (n : Nat) (cs : List (PMatch K)) (i pt : Nat) (o : TriOut K), n ≤ cs.length →
      pt + (inliersFrom i n cs).length ≤ o.X.length → pt + (inliersFrom i n cs).length ≤ o.ids.length →
      triangulateLoop svd4 P0 P1 n cs i pt o = .ok
        (⟨o.X.take pt ++ (inliersFrom i n cs).map (fun c => triangulatePoint svd4 c.1 P0 P1)
            ++ o.X.drop (pt + (inliersFrom i n cs).length),
          o.ids.take pt ++ (inliersFrom i n cs).map (fun c => (c.2 : Int)) ++ o.ids.drop (pt + (inliersFrom i n cs).length)⟩,
          pt + (inliersFrom i n cs).length)
  | 0, cs, i, pt, o, _, _, _ => by simp [triangulateLoop, inliersFrom]
  | n + 1, [], i, pt, o, h, _, _ => by simp at h
  | n + 1, c :: cs, i, pt, o, h, hX, hI => by
    simp only [List.length_cons, Nat.add_le_add_iff_right] at h
    rw [triangulateLoop]
    rw [inliersFrom_succ] at hX hI ⊢
    split
    · rename_i hc
      rw [if_pos hc] at hX hI
      simp only [List.length_cons] at hX hI
      rw [if_pos ⟨by omega, by omega⟩,
        triangulateLoop_ok svd4 P0 P1 n cs (i + 1) (pt + 1) _ h (by rw [List.length_set]; omega) (by rw [List.length_set]; omega)]
      have hset : ∀ {α : Type} (l : List α) (a : α) (L : List α), pt < l.length → pt + (L.length + 1) ≤ l.length →
          (l.set pt a).take (pt + 1) ++ L ++ (l.set pt a).drop (pt + 1 + L.length)
            = l.take pt ++ (a :: L) ++ l.drop (pt + (L.length + 1)) := by
        intro α l a L h1 h2
        rw [List.take_add_one, List.take_set_of_le (Nat.le_refl pt), List.getElem?_set_self h1,
          List.drop_set_of_lt (by omega)]
        simp [Nat.add_assoc, Nat.add_comm 1]
      have e1 := hset o.X (triangulatePoint svd4 c P0 P1)
        ((inliersFrom (i + 1) n cs).map fun c => triangulatePoint svd4 c.1 P0 P1) (by omega) (by rw [List.length_map]; omega)
      have e2 := hset o.ids (i : Int) ((inliersFrom (i + 1) n cs).map fun c => (c.2 : Int)) (by omega)
        (by rw [List.length_map]; omega)
      rw [List.length_map] at e1 e2
      rw [e1, e2]
      simp only [List.map_cons, List.length_cons]
      congr 2
      omega
    · rename_i hc
      rw [if_neg hc] at hX hI
      exact triangulateLoop_ok svd4 P0 P1 n cs (i + 1) pt o h hX hI

theorem triangulateLoop_ub {K : Type} [Field K] [DecidableEq K] (svd4 : List (Fin 4 → K) → Fin 4 → Fin 4 → K) (P0 P1 : M34 K) :
    ∀ (n : Nat) (cs : List (PMatch K)) (i pt : Nat) (o : TriOut K), pt ≤ o.X.length → pt ≤ o.ids.length →
      min o.X.length o.ids.length < pt + (inliersFrom i n cs).length → triangulateLoop svd4 P0 P1 n cs i pt o = .ub
  | 0, cs, i, pt, o, hX, hI, h => by
    simp [inliersFrom] at h
    omega
  | n + 1, [], i, pt, o, hX, hI, h => rfl
  | n + 1, c :: cs, i, pt, o, hX, hI, h => by
    rw [triangulateLoop]
    rw [inliersFrom_succ] at h
    split
    · rename_i hc
      rw [if_pos hc, List.length_cons] at h
      split
      · exact triangulateLoop_ub svd4 P0 P1 n cs (i + 1) (pt + 1) _ (by rw [List.length_set]; omega)
          (by rw [List.length_set]; omega) (by rw [List.length_set, List.length_set]; omega)
      · rfl
    · rename_i hc
      rw [if_neg hc] at h
      exact triangulateLoop_ub svd4 P0 P1 n cs (i + 1) pt o hX hI h

/-- The number of matches among the first `n` that are marked. -/
def marks {K : Type} (n : Nat) (corr : List (PMatch K)) : Nat := (corr.take n).countP PMatch.inlier

theorem marks_eq {K : Type} (n : Nat) (corr : List (PMatch K)) : (inliersFrom 0 n corr).length = marks n corr := by
  rw [inliersFrom_length, marks, List.countP_eq_length_filter]

/-- `nx_pinhole_triangulate` computes a point for each of the marked matches, in their order, with the position of the match,
and returns their number, if there is room for them all. -/
theorem c73_triangulate_partial (nPt : Int) (o : TriOut ℝ) (n : Nat) (corr : List (PMatch ℝ)) (P0 P1 : M34 ℝ)
    (hn : n ≤ corr.length) (hpt : (marks n corr : Int) ≤ nPt) (hX : nPt ≤ o.X.length) (hI : nPt ≤ o.ids.length) :
    ∃ o', pinholeTriangulate svd4 nPt o n corr P0 P1 = .ok (o', marks n corr) ∧
      o'.X.length = o.X.length ∧ o'.ids.length = o.ids.length ∧
      o'.X.drop (marks n corr) = o.X.drop (marks n corr) ∧ o'.ids.drop (marks n corr) = o.ids.drop (marks n corr) ∧
      (o'.ids.take (marks n corr)).Pairwise (· < ·) ∧
      (∀ j : Nat, (j : Int) ∈ o'.ids.take (marks n corr) ↔ j < n ∧ ∃ c, corr[j]? = some c ∧ c.inlier = true) ∧
      ∀ m : Nat, m < marks n corr → ∃ (j : Nat) (c : PMatch ℝ), o'.ids[m]? = some (j : Int) ∧ corr[j]? = some c ∧
        c.inlier = true ∧ o'.X[m]? = some (triangulatePoint svd4 c P0 P1) := by
  have hk := marks_eq n corr
  have hloop := triangulateLoop_ok svd4 P0 P1 n corr 0 0 o hn (by omega) (by omega)
  simp only [List.take_zero, List.nil_append, Nat.zero_add] at hloop
  have hmem : ∀ p ∈ inliersFrom 0 n corr, p.2 < n ∧ corr[p.2]? = some p.1 ∧ p.1.inlier = true := by
    rintro ⟨c, j⟩ hp
    rw [inliersFrom, List.mem_filter, List.mem_zipIdx_iff_getElem?] at hp
    obtain ⟨h1, h2⟩ := hp
    simp only at h1 h2
    have hj : j < n := by
      by_contra hj
      rw [List.getElem?_take_eq_none (by omega)] at h1
      cases h1
    rw [List.getElem?_take_of_lt hj] at h1
    exact ⟨hj, h1, h2⟩
  have lX : ((inliersFrom 0 n corr).map fun c => triangulatePoint svd4 c.1 P0 P1).length = marks n corr := by
    rw [List.length_map, hk]
  have lI : ((inliersFrom 0 n corr).map fun c => (c.2 : Int)).length = marks n corr := by rw [List.length_map, hk]
  refine ⟨⟨(inliersFrom 0 n corr).map (fun c => triangulatePoint svd4 c.1 P0 P1) ++ o.X.drop (marks n corr),
    (inliersFrom 0 n corr).map (fun c => (c.2 : Int)) ++ o.ids.drop (marks n corr)⟩, ?_, ?_, ?_, ?_, ?_, ?_, ?_, ?_⟩
  · have hc := countInliers_ok n corr 0 hn
    rw [Nat.zero_add, ← inliersFrom_length n 0 corr, hk] at hc
    have e : (if ((marks n corr : Nat) : Int) > nPt then nPt else (marks n corr : Int)) = marks n corr := if_neg (by omega)
    simp only [pinholeTriangulate, Int.toNat_natCast, hc, Res.ok_bind, hloop, e, hk, if_true]
    rfl
  · simp only [List.length_append, lX, List.length_drop]
    omega
  · simp only [List.length_append, lI, List.length_drop]
    omega
  · exact List.drop_left' lX
  · exact List.drop_left' lI
  · simp only
    rw [List.take_left' lI, List.pairwise_map]
    have hz : ((corr.take n).zipIdx 0).Pairwise fun a b => ((a.2 : Nat) : Int) < (b.2 : Int) := by
      rw [List.pairwise_iff_getElem]
      intro a b ha hb hab
      simp only [List.getElem_zipIdx]
      omega
    exact hz.filter _
  · intro j
    simp only
    rw [List.take_left' lI, List.mem_map]
    constructor
    · rintro ⟨p, hp, e⟩
      obtain ⟨h1, h2, h3⟩ := hmem p hp
      have : p.2 = j := by exact_mod_cast e
      subst this
      exact ⟨h1, p.1, h2, h3⟩
    · rintro ⟨h1, c, h2, h3⟩
      refine ⟨(c, j), ?_, rfl⟩
      rw [inliersFrom, List.mem_filter, List.mem_zipIdx_iff_getElem?]
      exact ⟨by simp only; rw [List.getElem?_take_of_lt h1, h2], h3⟩
  · intro m hm
    have hm' : m < (inliersFrom 0 n corr).length := by omega
    obtain ⟨h1, h2, h3⟩ := hmem _ (List.getElem_mem hm')
    refine ⟨(inliersFrom 0 n corr)[m].2, (inliersFrom 0 n corr)[m].1, ?_, h2, h3, ?_⟩
    · simp only
      rw [List.getElem?_append_left (by omega), List.getElem?_map, List.getElem?_eq_getElem hm']
      rfl
    · simp only
      rw [List.getElem?_append_left (by omega), List.getElem?_map, List.getElem?_eq_getElem hm']
      rfl

/-- The parameter `n_pt` does not protect the arrays: if more matches are marked than the arrays have elements, the function writes
behind them. -/
theorem c73_triangulate_overflow (nPt : Int) (o : TriOut ℝ) (n : Nat) (corr : List (PMatch ℝ)) (P0 P1 : M34 ℝ)
    (hn : n ≤ corr.length) (hX : min o.X.length o.ids.length < marks n corr) :
    pinholeTriangulate svd4 nPt o n corr P0 P1 = .ub := by
  rw [pinholeTriangulate, Int.toNat_natCast, countInliers_ok n corr 0 hn, Res.ok_bind,
    triangulateLoop_ub svd4 P0 P1 n corr 0 0 o (by omega) (by omega) (by rw [marks_eq]; omega)]
  rfl

/-- And with larger arrays the assertion at the end fails. -/
theorem c73_triangulate_fatal (nPt : Int) (o : TriOut ℝ) (n : Nat) (corr : List (PMatch ℝ)) (P0 P1 : M34 ℝ)
    (hn : n ≤ corr.length) (hX : marks n corr ≤ o.X.length) (hI : marks n corr ≤ o.ids.length) (hpt : nPt < marks n corr) :
    pinholeTriangulate svd4 nPt o n corr P0 P1 = .fatal := by
  have hk := marks_eq n corr
  have hc := countInliers_ok n corr 0 hn
  rw [Nat.zero_add, ← inliersFrom_length n 0 corr, hk] at hc
  have e : (if ((marks n corr : Nat) : Int) > nPt then nPt else (marks n corr : Int)) = nPt := if_pos hpt
  simp only [pinholeTriangulate, Int.toNat_natCast, hc, Res.ok_bind,
    triangulateLoop_ok svd4 P0 P1 n corr 0 0 o hn (by omega) (by omega), e, hk]
  rw [if_neg (by omega)]

theorem triColumns_error (c : PMatch ℝ) (P0 P1 : M34 ℝ) (Y : Fin 4 → ℝ) :
    ((triangulationColumns c P0 P1).map fun a => (∑ k, a k * Y k) ^ 2).sum = triError P0.mat P1.mat c.x c.xp Y := by
  simp [triangulationColumns, triError, M34.mat, Matrix.mulVec, dotProduct, Fin.sum_univ_succ]
  ring

/-- The point is, in homogeneous coordinates, a unit vector with the smallest algebraic error. -/
theorem c73_triangulate_minimal (hs : Svd4Contract svd4) (c : PMatch ℝ) (P0 P1 : M34 ℝ) :
    ∃ u : Fin 4 → ℝ, ∑ k, u k ^ 2 = 1 ∧
      (∀ v : Fin 4 → ℝ, ∑ k, v k ^ 2 = 1 → triError P0.mat P1.mat c.x c.xp u ≤ triError P0.mat P1.mat c.x c.xp v) ∧
      ((u 3 = 0 ∧ triangulatePoint svd4 c P0 P1 = none) ∨
        ∃ X, triangulatePoint svd4 c P0 P1 = some X ∧ u = u 3 • homog X.vec ∧ u 3 ≠ 0) := by
  obtain ⟨h1, h2⟩ := hs (triangulationColumns c P0 P1)
  refine ⟨svd4 (triangulationColumns c P0 P1) 3, h1, ?_, ?_⟩
  · intro v hv
    rw [← triColumns_error, ← triColumns_error]
    exact h2 v hv
  · rw [triangulatePoint]
    by_cases h : svd4 (triangulationColumns c P0 P1) 3 3 = 0
    · exact .inl ⟨h, by simp only [h, if_true]⟩
    · refine .inr ⟨_, if_neg h, ?_, h⟩
      ext i
      fin_cases i <;> simp [homog, V3.vec] <;> field_simp

/-- Two cameras with different centres determine a point that is not on the line through the centres. -/
theorem two_rays {P0 P1 : Matrix (Fin 3) (Fin 4) ℝ} {C0 C1 : Fin 3 → ℝ} (h0 : CentredAt P0 C0) (h1 : CentredAt P1 C1)
    {X : Fin 3 → ℝ} (hX : crossProduct (X - C0) (X - C1) ≠ 0) {Y : Fin 4 → ℝ} {a b : ℝ}
    (ha : P0.mulVec Y = a • P0.mulVec (homog X)) (hb : P1.mulVec Y = b • P1.mulVec (homog X)) :
    Y = Y 3 • homog X := by
  have key : ∀ {P : Matrix (Fin 3) (Fin 4) ℝ} {C : Fin 3 → ℝ} {a : ℝ}, CentredAt P C →
      P.mulVec Y = a • P.mulVec (homog X) → ∀ i : Fin 3, Y i.castSucc - Y 3 * C i = a * (X i - C i) := by
    rintro P C a ⟨hd, hC⟩ he
    have hP : ∀ Z : Fin 4 → ℝ, P.mulVec Z = (P.submatrix id Fin.castSucc).mulVec fun i => Z i.castSucc - Z 3 * C i := by
      intro Z
      ext r
      have hr := congrFun hC r
      simp [Matrix.mulVec, dotProduct, Fin.sum_univ_succ, homog] at hr ⊢
      linear_combination Z 3 * hr
    rw [hP Y, hP (homog X), ← Matrix.mulVec_smul] at he
    have := Matrix.mulVec_injective_of_isUnit ((Matrix.isUnit_iff_isUnit_det _).mpr (isUnit_iff_ne_zero.mpr hd)) he
    intro i
    have h := congrFun this i
    simp only [Pi.smul_apply, smul_eq_mul] at h
    rw [h]
    have e3 : homog X 3 = 1 := rfl
    have ei : homog X i.castSucc = X i := by fin_cases i <;> rfl
    rw [e3, ei, one_mul]
  have e0 := key h0 ha
  have e1 := key h1 hb
  -- the two expressions for the base line
  have hdiff : ∀ i, (Y 3 - a) * (X i - C0 i) = (Y 3 - b) * (X i - C1 i) := by
    intro i
    linear_combination e0 i - e1 i
  have hwa : Y 3 = a := by
    by_contra hne
    have hne' : Y 3 - a ≠ 0 := sub_ne_zero.mpr hne
    apply hX
    have e : (X - C0) = ((Y 3 - b) / (Y 3 - a)) • (X - C1) := by
      ext i
      simp only [Pi.sub_apply, Pi.smul_apply, smul_eq_mul]
      field_simp
      linear_combination hdiff i
    rw [e, map_smul, LinearMap.smul_apply, cross_self, smul_zero]
  ext i
  fin_cases i
  · have := e0 0
    simp [homog] at this ⊢
    rw [← hwa] at this
    linarith
  · have := e0 1
    simp [homog] at this ⊢
    rw [← hwa] at this
    change Y 1 - _ = _ at this
    linarith
  · have := e0 2
    simp [homog] at this ⊢
    rw [← hwa] at this
    change Y 2 - _ = _ at this
    linarith
  · simp [homog]

/-- A point that both cameras see is recovered from its images, if it is not on the line through the centres. -/
theorem c73_triangulate_exact (hs : Svd4Contract svd4) (c : PMatch ℝ) (P0 P1 : M34 ℝ) (C0 C1 : Fin 3 → ℝ)
    (h0 : CentredAt P0.mat C0) (h1 : CentredAt P1.mat C1) (X : V3 ℝ) (hX : crossProduct (X.vec - C0) (X.vec - C1) ≠ 0)
    (hx : Sees P0.mat X.vec c.x) (hxp : Sees P1.mat X.vec c.xp) : triangulatePoint svd4 c P0 P1 = some X := by
  obtain ⟨u, hu, hmin, hcase⟩ := c73_triangulate_minimal hs c P0 P1
  obtain ⟨s, hs0, es⟩ := hx
  obtain ⟨s', hs0', es'⟩ := hxp
  -- the point itself, scaled to length one, has error zero
  have hpos : 0 < ∑ k, homog X.vec k ^ 2 := by
    simp [Fin.sum_univ_succ, homog]
    positivity
  have herr : ∀ r : ℝ, triError P0.mat P1.mat c.x c.xp (r • homog X.vec) = 0 := by
    intro r
    simp only [triError, Matrix.mulVec_smul, es, es', hom2, Pi.smul_apply, smul_eq_mul]
    simp
    ring
  have hzero : triError P0.mat P1.mat c.x c.xp u = 0 := by
    have := hmin ((Real.sqrt (∑ k, homog X.vec k ^ 2))⁻¹ • homog X.vec) (by
      simp only [Pi.smul_apply, smul_eq_mul, mul_pow]
      rw [← Finset.mul_sum, inv_pow, Real.sq_sqrt hpos.le, inv_mul_cancel₀ hpos.ne'])
    rw [herr] at this
    refine le_antisymm this ?_
    unfold triError
    positivity
  have hparts : (c.x.1 * P0.mat.mulVec u 2 - P0.mat.mulVec u 0 = 0 ∧ c.x.2 * P0.mat.mulVec u 2 - P0.mat.mulVec u 1 = 0) ∧
      c.xp.1 * P1.mat.mulVec u 2 - P1.mat.mulVec u 0 = 0 ∧ c.xp.2 * P1.mat.mulVec u 2 - P1.mat.mulVec u 1 = 0 := by
    have key : ∀ a b c d : ℝ, a ^ 2 + b ^ 2 + c ^ 2 + d ^ 2 = 0 → (a = 0 ∧ b = 0) ∧ c = 0 ∧ d = 0 := by
      intro a b c d h
      have ha := sq_nonneg a
      have hb := sq_nonneg b
      have hc := sq_nonneg c
      have hd := sq_nonneg d
      exact ⟨⟨pow_eq_zero_iff two_ne_zero |>.mp (by linarith), pow_eq_zero_iff two_ne_zero |>.mp (by linarith)⟩,
        pow_eq_zero_iff two_ne_zero |>.mp (by linarith), pow_eq_zero_iff two_ne_zero |>.mp (by linarith)⟩
    exact key _ _ _ _ hzero
  obtain ⟨⟨p0, p1⟩, q0, q1⟩ := hparts
  have hY := two_rays h0 h1 hX (Y := u) (a := P0.mat.mulVec u 2 / s) (b := P1.mat.mulVec u 2 / s') (by
      rw [es, smul_smul, div_mul_cancel₀ _ hs0]
      ext i
      fin_cases i <;> simp [hom2] <;> linarith) (by
      rw [es', smul_smul, div_mul_cancel₀ _ hs0']
      ext i
      fin_cases i <;> simp [hom2] <;> linarith)
  rcases hcase with ⟨hz, -⟩ | ⟨X', hX', e, hne⟩
  · rw [hz, zero_smul] at hY
    rw [hY] at hu
    simp at hu
  · rw [hX']
    have hh : homog X'.vec = homog X.vec := by
      rw [hY] at e
      have e3 : (u 3 • homog X.vec) 3 = u 3 := by simp [homog]
      rw [e3] at e
      exact (smul_right_injective _ hne e).symm
    have g0 := congrFun hh 0
    have g1 := congrFun hh 1
    have g2 := congrFun hh 2
    simp [homog, V3.vec] at g0 g1 g2
    have : ∀ A B : V3 ℝ, A.e0 = B.e0 → A.e1 = B.e1 → A.e2 = B.e2 → A = B := by
      rintro ⟨a, b, c⟩ ⟨a', b', c'⟩ h1 h2 h3
      simp only at h1 h2 h3
      rw [h1, h2, h3]
    rw [this _ _ g0 g1 g2]

/-- Projecting points with two cameras and triangulating the matches gives the points back. -/
theorem c73_round_trip (hs : Svd4Contract svd4) (P0 P1 : M34 ℝ) (C0 C1 : Fin 3 → ℝ) (h0 : CentredAt P0.mat C0)
    (h1 : CentredAt P1.mat C1) (n : Nat) (X : List (V3 ℝ)) (hn : n ≤ X.length)
    (hX : ∀ Y ∈ X.take n, crossProduct (Y.vec - C0) (Y.vec - C1) ≠ 0) (out0 out1 x0 x1 : List (Option (ℝ × ℝ))) (m0 m1 : ℝ)
    (ho0 : n ≤ out0.length) (ho1 : n ≤ out1.length) (e0 : pinholeProject P0 n X out0 = .ok (x0, m0))
    (e1 : pinholeProject P1 n X out1 = .ok (x1, m1)) (corr : List (PMatch ℝ)) (hc : n ≤ corr.length)
    (hm : ∀ (i : Nat) (c : PMatch ℝ), i < n → corr[i]? = some c →
      c.inlier = true ∧ x0[i]? = some (some c.x) ∧ x1[i]? = some (some c.xp))
    (o : TriOut ℝ) (hoX : n ≤ o.X.length) (hoI : n ≤ o.ids.length) :
    ∃ o', pinholeTriangulate svd4 n o n corr P0 P1 = .ok (o', n) ∧ o'.X.take n = (X.take n).map some ∧
      ∀ i : Nat, i < n → o'.ids[i]? = some (i : Int) := by
  have hnpos : 0 < n := by
    by_contra h
    rw [pinholeProject, if_neg (by omega)] at e0
    cases e0
  have nz : ∀ {P : M34 ℝ} {out x : List (Option (ℝ × ℝ))} {m : ℝ}, n ≤ out.length → pinholeProject P n X out = .ok (x, m) →
      ∀ Y ∈ X.take n, depth P.mat Y.vec ≠ 0 := by
    intro P out x m ho e Y hY hz
    rw [c73_project_zero P n X out hn ho Y hY hz] at e
    cases e
  have sees : ∀ {P : M34 ℝ} {out x : List (Option (ℝ × ℝ))} {m : ℝ}, n ≤ out.length → pinholeProject P n X out = .ok (x, m) →
      ∀ (i : Nat) (Xi : V3 ℝ) (q : ℝ × ℝ), i < n → X[i]? = some Xi → x[i]? = some (some q) → Sees P.mat Xi.vec q := by
    intro P out x m ho e i Xi q hi hXi hq
    obtain ⟨out', m', e', -, -, h, -⟩ := c73_project P n hnpos X out hn ho (nz ho e)
    rw [e'] at e
    cases e
    obtain ⟨q', g1, g2⟩ := h i Xi hi hXi
    rw [hq] at g1
    cases g1
    exact g2
  have hall : ∀ (i : Nat) (c : PMatch ℝ) (Xi : V3 ℝ), i < n → corr[i]? = some c → X[i]? = some Xi →
      triangulatePoint svd4 c P0 P1 = some Xi := by
    intro i c Xi hi hci hXi
    obtain ⟨-, a, b⟩ := hm i c hi hci
    exact c73_triangulate_exact hs c P0 P1 C0 C1 h0 h1 Xi
      (hX Xi (List.mem_of_getElem? (i := i) (by rw [List.getElem?_take_of_lt hi, hXi]))) (sees ho0 e0 i Xi _ hi hXi a)
      (sees ho1 e1 i Xi _ hi hXi b)
  have hmarks : marks n corr = n := by
    have hl : (corr.take n).length = n := by rw [List.length_take]; omega
    rw [marks]
    conv_rhs => rw [← hl]
    rw [List.countP_eq_length]
    intro c hc'
    obtain ⟨i, hi, e⟩ := List.getElem_of_mem hc'
    refine (hm i c (by omega) ?_).1
    rw [← e, List.getElem_take, List.getElem?_eq_getElem]
  obtain ⟨o', r1, r2, r3, r4, r5, r6, r7, r8⟩ := c73_triangulate_partial (svd4 := svd4) n o n corr P0 P1 hc (by omega)
    (by omega) (by omega)
  rw [hmarks] at r1 r4 r5 r6 r7 r8
  have hids : ∀ i : Nat, i < n → o'.ids[i]? = some (i : Int) := by
    have hids' : o'.ids.take n = (List.range n).map fun i : Nat => (i : Int) := by
      refine List.Perm.eq_of_pairwise (le := (· < ·)) (fun a b _ _ h1 h2 => absurd h1 (by omega)) r6 ?_ ?_
      · rw [List.pairwise_map]
        exact List.pairwise_lt_range.imp (fun h => by omega)
      · rw [List.perm_ext_iff_of_nodup (r6.imp (fun h => by omega))
          ((List.nodup_range).map (fun a b h => by exact_mod_cast h))]
        intro a
        constructor
        · intro ha
          obtain ⟨m, hm1, hm2⟩ := List.getElem_of_mem ha
          rw [List.length_take] at hm1
          obtain ⟨j, c, g1, g2, g3, -⟩ := r8 m (by omega)
          rw [List.getElem_take] at hm2
          rw [List.getElem?_eq_getElem (by omega), hm2, Option.some.injEq] at g1
          subst g1
          have := (r7 j).mp ha
          simp [this.1]
        · intro ha
          rw [List.mem_map] at ha
          obtain ⟨j, hj, rfl⟩ := ha
          rw [List.mem_range] at hj
          rw [r7]
          refine ⟨hj, corr[j], List.getElem?_eq_getElem (by omega), ?_⟩
          exact (hm j _ hj (List.getElem?_eq_getElem (by omega))).1
    intro i hi
    have := congrArg (fun l => l[i]?) hids'
    simp only [List.getElem?_take_of_lt hi] at this
    rw [this]
    simp [hi]
  refine ⟨o', r1, ?_, hids⟩
  apply List.ext_getElem?
  intro i
  by_cases hi : i < n
  · rw [List.getElem?_take_of_lt hi, List.getElem?_map, List.getElem?_take_of_lt hi]
    obtain ⟨j, c, g1, g2, g3, g4⟩ := r8 i hi
    rw [hids i hi, Option.some.injEq] at g1
    have : j = i := by exact_mod_cast g1.symm
    subst this
    rw [g4, List.getElem?_eq_getElem (by omega : j < X.length), Option.map_some, Option.some.injEq]
    exact hall j c _ hi g2 (List.getElem?_eq_getElem (by omega))
  · rw [List.getElem?_take_eq_none (by omega), List.getElem?_map, List.getElem?_take_eq_none (by omega)]
    rfl

/-- The contract of the decomposition can be met. -/
example : ∃ svd4, Svd4Contract svd4 := by
  have key : ∀ cols : List (Fin 4 → ℝ), ∃ u : Fin 4 → ℝ, ∑ k, u k ^ 2 = 1 ∧ ∀ v : Fin 4 → ℝ, ∑ k, v k ^ 2 = 1 →
      (cols.map fun c => (∑ k, c k * u k) ^ 2).sum ≤ (cols.map fun c => (∑ k, c k * v k) ^ 2).sum := by
    intro cols
    have hcl : IsClosed {v : Fin 4 → ℝ | ∑ k, v k ^ 2 = 1} := by
      refine isClosed_eq ?_ continuous_const
      fun_prop
    have hb : Bornology.IsBounded {v : Fin 4 → ℝ | ∑ k, v k ^ 2 = 1} := by
      refine (Metric.isBounded_closedBall (x := (0 : Fin 4 → ℝ)) (r := 1)).subset ?_
      intro v hv
      rw [Metric.mem_closedBall, dist_pi_le_iff zero_le_one]
      intro i
      have h1 : v i ^ 2 ≤ ∑ k, v k ^ 2 := Finset.single_le_sum (fun k _ => sq_nonneg (v k)) (Finset.mem_univ i)
      have hv' : ∑ k, v k ^ 2 = 1 := hv
      rw [hv'] at h1
      rw [Real.dist_eq, Pi.zero_apply, sub_zero]
      exact abs_le_one_iff_mul_self_le_one.mpr (by nlinarith)
    have hc : IsCompact {v : Fin 4 → ℝ | ∑ k, v k ^ 2 = 1} := Metric.isCompact_of_isClosed_isBounded hcl hb
    have hne : {v : Fin 4 → ℝ | ∑ k, v k ^ 2 = 1}.Nonempty :=
      ⟨fun i => if i = 0 then 1 else 0, by simp [Fin.sum_univ_succ]⟩
    have hf : Continuous fun v : Fin 4 → ℝ => (cols.map fun c => (∑ k, c k * v k) ^ 2).sum := by
      induction cols with
      | nil => simpa using continuous_const
      | cons c cs ih =>
        simp only [List.map_cons, List.sum_cons]
        exact Continuous.add (by fun_prop) ih
    obtain ⟨u, hu, hmin⟩ := hc.exists_isMinOn hne hf.continuousOn
    exact ⟨u, hu, fun v hv => hmin hv⟩
  choose u hu1 hu2 using key
  exact ⟨fun cols _ => u cols, fun cols => ⟨hu1 cols, hu2 cols⟩⟩

/-- Two cameras one unit apart and a point in front of them meet the hypotheses of the exact case. -/
example :
    let P0 : M34 ℝ := projectionFromKrt none none none
    let P1 : M34 ℝ := projectionFromKrt none none (some ⟨-1, 0, 0⟩)
    let X : V3 ℝ := ⟨2, 3, 4⟩
    CentredAt P0.mat ![0, 0, 0] ∧ CentredAt P1.mat ![1, 0, 0] ∧
      crossProduct (X.vec - ![0, 0, 0]) (X.vec - ![1, 0, 0]) ≠ 0 ∧ Sees P0.mat X.vec (1 / 2, 3 / 4) ∧
      Sees P1.mat X.vec (1 / 4, 3 / 4) := by
  have e0 : (projectionFromKrt none none none : M34 ℝ).mat = !![1, 0, 0, 0; 0, 1, 0, 0; 0, 0, 1, 0] := by
    ext i j
    fin_cases i <;> fin_cases j <;> simp [projectionFromKrt, dmat3MulUa, M34.mat]
  have e1 : (projectionFromKrt none none (some ⟨-1, 0, 0⟩) : M34 ℝ).mat = !![1, 0, 0, -1; 0, 1, 0, 0; 0, 0, 1, 0] := by
    ext i j
    fin_cases i <;> fin_cases j <;> simp [projectionFromKrt, dmat3MulUa, M34.mat]
  simp only [e0, e1]
  refine ⟨⟨?_, ?_⟩, ⟨?_, ?_⟩, ?_, ⟨4, by norm_num, ?_⟩, ⟨4, by norm_num, ?_⟩⟩
  · rw [Matrix.det_fin_three]
    simp [Matrix.submatrix]
  · ext i
    fin_cases i <;> simp [Matrix.mulVec, dotProduct, Fin.sum_univ_succ, homog]
  · rw [Matrix.det_fin_three]
    simp [Matrix.submatrix]
  · ext i
    fin_cases i <;> simp [Matrix.mulVec, dotProduct, Fin.sum_univ_succ, homog]
  · intro h
    have := congrFun h 1
    simp [crossProduct, V3.vec] at this
    norm_num at this
  · ext i
    fin_cases i <;> simp [Matrix.mulVec, dotProduct, Fin.sum_univ_succ, homog, V3.vec, hom2] <;> norm_num
  · ext i
    fin_cases i <;> simp [Matrix.mulVec, dotProduct, Fin.sum_univ_succ, homog, V3.vec, hom2] <;> norm_num

/-- Projection of two points, and two marked matches with room for one point. -/
example :
    pinholeProject (projectionFromKrt (some ⟨500, 0, 0, 0, 500, 0, 320, 240, 1⟩) none none : M34 ℚ) 2
        [⟨1, 2, 4⟩, ⟨0, 0, -1⟩] [none, none] = .ok ([some (445, 490), some (320, 240)], 1) ∧
      pinholeTriangulate (fun _ _ => ![1, 2, 3, 2]) 1 ⟨[none], [0]⟩ 2
        [(⟨(0, 0), (0, 0), 0, 1, 1, 0, 0, true⟩ : PMatch ℚ), ⟨(0, 0), (0, 0), 0, 1, 1, 0, 0, true⟩]
        (projectionFromKrt none none none) (projectionFromKrt none none none) = .ub ∧
      pinholeTriangulate (fun _ _ => ![1, 2, 3, 2]) 1 ⟨[none], [0]⟩ 2
        [(⟨(0, 0), (0, 0), 0, 1, 1, 0, 0, false⟩ : PMatch ℚ), ⟨(0, 0), (0, 0), 0, 1, 1, 0, 0, true⟩]
        (projectionFromKrt none none none) (projectionFromKrt none none none)
          = .ok (⟨[some ⟨1 / 2, 1, 3 / 2⟩], [1]⟩, 1) := by
  decide +kernel

end

end Nx
