import Verif.Lemmas.Mark
import Verif.Props.Mat

/-!
# C63: inliers and transfer errors of homographies; C64: the plausibility check
-/

namespace Nx

section
variable {K : Type} [Field K] [LinearOrder K]

/-- The specification of an inlier: the transformation takes `p` to a point whose distance from `q` is less than
`tol` (given by its square). -/
def Within (A : Matrix (Fin 3) (Fin 3) K) (p q : K × K) (tolSq : K) : Prop :=
  ∃ m : K × K, Projects A p m ∧ (m.1 - q.1) ^ 2 + (m.2 - q.2) ^ 2 < tolSq

theorem closeTo_iff (h : M3 K) (p q : K × K) (t : K) :
    closeTo (transferFwd h p).1 q t = true ↔ Within h.mat p q t := by
  constructor
  · intro hc
    cases hm : (transferFwd h p).1 with
    | none => rw [hm] at hc; cases hc
    | some m =>
      rw [hm] at hc
      refine ⟨m, (transferFwd_eq_some h p m).mp hm, ?_⟩
      simpa [closeTo, sq] using hc
  · rintro ⟨m, hm, hd⟩
    rw [(transferFwd_eq_some h p m).mpr hm]
    simpa [closeTo, sq] using hd

omit [Field K] [LinearOrder K] in
/-- The marking loop with any test. -/
theorem markLoop_spec (test : PMatch K → Bool) (P : PMatch K → Prop) (hP : ∀ c, test c = true ↔ P c) (n : Nat)
    (corr : List (PMatch K)) (hn : n ≤ corr.length) :
    ∃ corr' k, markLoop test n corr 0 = .ok (corr', k) ∧ corr'.length = corr.length ∧
      k = ((corr'.take n).filter fun c => c.inlier).length ∧
      ∀ i c, corr[i]? = some c → ∃ b : Bool, corr'[i]? = some { c with inlier := b } ∧
        (i < n → (b = true ↔ P c)) ∧ (n ≤ i → b = c.inlier) := by
  have hlen : (marked test (corr.take n)).length = n := by simp [marked, hn]
  refine ⟨marked test (corr.take n) ++ corr.drop n, ((corr.take n).filter test).length, ?_, ?_, ?_, ?_⟩
  · rw [markLoop_ok _ _ _ _ hn, Nat.zero_add]
  · rw [List.length_append, hlen, List.length_drop]
    omega
  · rw [List.take_append_of_le_length hlen.ge, List.take_of_length_le hlen.le, marked_filter_length]
  · intro i c hi
    by_cases hin : i < n
    · refine ⟨test c, ?_, fun _ => hP c, fun h' => by omega⟩
      rw [List.getElem?_append_left (by omega), marked, List.getElem?_map, List.getElem?_take_of_lt hin, hi]
      rfl
    · refine ⟨c.inlier, ?_, fun h' => absurd h' hin, fun _ => rfl⟩
      rw [List.getElem?_append_right (by omega), hlen, List.getElem?_drop, Nat.add_sub_cancel' (by omega), hi]

/-- `nx_homography_mark_inliers` changes nothing but the inlier marks of the first `n`
correspondences; it marks those whose point is taken to less than the tolerance from
its correspondence and returns their number. -/
theorem c63_mark (h : M3 K) (n : Nat) (corr : List (PMatch K)) (tol : K) (hn : n ≤ corr.length) :
    ∃ corr' k, markInliers h n corr tol = .ok (corr', k) ∧ corr'.length = corr.length ∧
      k = ((corr'.take n).filter fun c => c.inlier).length ∧
      ∀ i c, corr[i]? = some c → ∃ b : Bool, corr'[i]? = some { c with inlier := b } ∧
        (i < n → (b = true ↔ Within h.mat c.x c.xp (tol ^ 2))) ∧ (n ≤ i → b = c.inlier) :=
  markLoop_spec _ (fun c => Within h.mat c.x c.xp (tol ^ 2)) (fun c => by rw [closeTo_iff, sq]) n corr hn

/-- `nx_homography_mark_inliers_inv` does the same in the other direction. -/
theorem c63_mark_inv (h : M3 K) (n : Nat) (corr : List (PMatch K)) (tol : K) (hn : n ≤ corr.length) :
    ∃ corr' k, markInliersInv h n corr tol = .ok (corr', k) ∧ corr'.length = corr.length ∧
      k = ((corr'.take n).filter fun c => c.inlier).length ∧
      ∀ i c, corr[i]? = some c → ∃ b : Bool, corr'[i]? = some { c with inlier := b } ∧
        (i < n → (b = true ↔ Within h.mat c.xp c.x (tol ^ 2))) ∧ (n ≤ i → b = c.inlier) :=
  markLoop_spec _ (fun c => Within h.mat c.xp c.x (tol ^ 2)) (fun c => by rw [closeTo_iff, sq]) n corr hn

end

/-- The distance of two points. -/
noncomputable def dist2 (p q : ℝ × ℝ) : ℝ := Real.sqrt ((p.1 - q.1) ^ 2 + (p.2 - q.2) ^ 2)

theorem dist2_eq_zero (p q : ℝ × ℝ) : dist2 p q = 0 ↔ p = q := by
  have h1 := sq_nonneg (p.1 - q.1)
  have h2 := sq_nonneg (p.2 - q.2)
  rw [dist2, Real.sqrt_eq_zero (by linarith)]
  constructor
  · intro h
    have e1 : p.1 - q.1 = 0 := pow_eq_zero_iff (two_ne_zero) |>.mp (by linarith)
    have e2 : p.2 - q.2 = 0 := pow_eq_zero_iff (two_ne_zero) |>.mp (by linarith)
    exact Prod.ext (by linarith) (by linarith)
  · rintro rfl
    simp

/-- `nx_homography_transfer_error_fwd` is the mean, over the inliers, of the distance of the image of the point from
its correspondence, provided there is an inlier and every inlier has an image. -/
theorem c63_error_fwd (h : M3 ℝ) (n : Nat) (corr : List (PMatch ℝ)) (hn : n ≤ corr.length) (img : PMatch ℝ → ℝ × ℝ)
    (hi : ∀ c ∈ (corr.take n).filter (fun c => c.inlier), Projects h.mat c.x (img c))
    (hne : (corr.take n).filter (fun c => c.inlier) ≠ []) :
    transferErrorFwd Real.sqrt h n corr
      = .ok (some ((((corr.take n).filter fun c => c.inlier).map fun c => dist2 (img c) c.xp).sum
        / ((corr.take n).filter fun c => c.inlier).length)) := by
  rw [transferErrorFwd, Int.toNat_natCast,
    errorLoop_ok Real.sqrt _ (fun c => dist2 (img c) c.xp) n corr 0 0 hn]
  · simp only [Res.ok_bind, errorMean, zero_add, Res.pure_eq]
    rw [if_neg (by rw [List.length_eq_zero_iff]; exact hne)]
    rfl
  · intro c hc
    exact ⟨img c, (transferFwd_eq_some _ _ _).mpr (hi c hc), by simp only [dist2, sq]⟩

/-- It is zero exactly if every inlier is taken to its correspondence. -/
theorem c63_error_zero (h : M3 ℝ) (n : Nat) (corr : List (PMatch ℝ)) (hn : n ≤ corr.length) :
    transferErrorFwd Real.sqrt h n corr = .ok (some 0) ↔
      (∃ c ∈ corr.take n, c.inlier = true) ∧ ∀ c ∈ corr.take n, c.inlier = true → Projects h.mat c.x c.xp := by
  by_cases hne : (corr.take n).filter (fun c => c.inlier) = []
  · constructor
    · intro he
      rw [transferErrorFwd, Int.toNat_natCast] at he
      have : ∃ e, errorLoop Real.sqrt (fun c => ((transferFwd h c.x).1, c.xp)) n corr (some 0) 0 = .ok (e, 0) := by
        refine ⟨some 0, ?_⟩
        rw [errorLoop_ok Real.sqrt _ (fun _ => 0) n corr 0 0 hn]
        · simp [hne]
        · intro c hc
          rw [hne] at hc
          cases hc
      obtain ⟨e, h'⟩ := this
      rw [h'] at he
      simp [errorMean] at he
    · rintro ⟨⟨c, hc, hi⟩, _⟩
      have : c ∈ (corr.take n).filter (fun c => c.inlier) := List.mem_filter.mpr ⟨hc, hi⟩
      rw [hne] at this
      cases this
  by_cases hall : ∀ c ∈ (corr.take n).filter (fun c => c.inlier), ∃ q, Projects h.mat c.x q
  · have hc : ∃ img : PMatch ℝ → ℝ × ℝ, ∀ c ∈ (corr.take n).filter (fun c => c.inlier), Projects h.mat c.x (img c) := by
      refine ⟨fun c => ((transferFwd h c.x).1).getD (0, 0), ?_⟩
      intro c hc
      obtain ⟨q, hq⟩ := hall c hc
      show Projects h.mat c.x (((transferFwd h c.x).1).getD (0, 0))
      rw [(transferFwd_eq_some _ _ _).mpr hq]
      exact hq
    obtain ⟨img, himg⟩ := hc
    rw [c63_error_fwd h n corr hn img himg hne, Res.ok.injEq, Option.some.injEq]
    have hlen : ((((corr.take n).filter fun c => c.inlier).length : Nat) : ℝ) ≠ 0 := by
      rw [Nat.cast_ne_zero, ne_eq, List.length_eq_zero_iff]
      exact hne
    rw [div_eq_zero_iff, or_iff_left hlen, (sum_nonneg_zero (fun c => dist2 (img c) c.xp) _ fun c _ => Real.sqrt_nonneg _).2]
    constructor
    · intro h0
      refine ⟨?_, ?_⟩
      · obtain ⟨c, hc⟩ := List.exists_mem_of_ne_nil _ hne
        exact ⟨c, (List.mem_filter.mp hc).1, by simpa using (List.mem_filter.mp hc).2⟩
      · intro c hc hi
        have hm : c ∈ (corr.take n).filter (fun c => c.inlier) := List.mem_filter.mpr ⟨hc, hi⟩
        have := himg c hm
        rwa [(dist2_eq_zero _ _).mp (h0 c hm)] at this
    · rintro ⟨_, h0⟩ c hm
      have hmf := List.mem_filter.mp hm
      rw [dist2_eq_zero]
      exact (himg c hm).unique (h0 c hmf.1 (by simpa using hmf.2))
  · constructor
    · intro he
      exfalso
      simp only [not_forall] at hall
      obtain ⟨c, hc, hq⟩ := hall
      rw [transferErrorFwd, Int.toNat_natCast, errorLoop_none _ _ n corr _ _ hn
        (Or.inr ⟨c, hc, (transferFwd_eq_none _ _).mpr fun q hp => hq ⟨q, hp⟩⟩)] at he
      simp only [Res.ok_bind, Res.pure_eq, Res.ok.injEq, errorMean] at he
      split at he <;> simp at he
    · rintro ⟨_, h0⟩
      exfalso
      apply hall
      intro c hc
      have hmf := List.mem_filter.mp hc
      exact ⟨_, h0 c hmf.1 (by simpa using hmf.2)⟩

/-- Without inliers the error is undefined (zero divided by zero). -/
theorem c63_error_no_inliers (h : M3 ℝ) (n : Nat) (corr : List (PMatch ℝ)) (hn : n ≤ corr.length)
    (hne : ∀ c ∈ corr.take n, c.inlier = false) : transferErrorFwd Real.sqrt h n corr = .ok none := by
  have hnil : (corr.take n).filter (fun c => c.inlier) = [] := by
    rw [List.filter_eq_nil_iff]
    intro c hc
    simp [hne c hc]
  rw [transferErrorFwd, Int.toNat_natCast, errorLoop_ok Real.sqrt _ (fun _ => 0) n corr 0 0 hn]
  · simp [hnil, errorMean]
  · intro c hc
    rw [hnil] at hc
    cases hc

/-- The correspondence with its two points exchanged. -/
def PMatch.swap {K : Type} (c : PMatch K) : PMatch K := { c with x := c.xp, xp := c.x }

theorem errorLoop_swap (f g : PMatch ℝ → Option (ℝ × ℝ) × (ℝ × ℝ)) (hfg : ∀ c, f c = g c.swap) :
    ∀ (n : Nat) (corr : List (PMatch ℝ)) (e : Option ℝ) (k : Nat),
    errorLoop Real.sqrt f n corr e k = errorLoop Real.sqrt g n (corr.map PMatch.swap) e k
  | 0, _, _, _ => by simp [errorLoop]
  | _ + 1, [], _, _ => by simp [errorLoop]
  | n + 1, c :: cs, e, k => by
    simp only [errorLoop, List.map_cons]
    rw [show c.swap.inlier = c.inlier from rfl, hfg c]
    split
    · exact errorLoop_swap f g hfg n cs _ _
    · exact errorLoop_swap f g hfg n cs _ _

theorem mat_injective {K : Type} {A B : M3 K} (h : A.mat = B.mat) : A = B := by
  have e := fun r c => congrFun (congrFun h r) c
  obtain ⟨a0, a1, a2, a3, a4, a5, a6, a7, a8⟩ := A
  obtain ⟨b0, b1, b2, b3, b4, b5, b6, b7, b8⟩ := B
  have := e 0 0
  have := e 0 1
  have := e 0 2
  have := e 1 0
  have := e 1 1
  have := e 1 2
  have := e 2 0
  have := e 2 1
  have := e 2 2
  simp_all [M3.mat]

theorem dmat3Inv_inv {K : Type} [Field K] [DecidableEq K] (h : M3 K) (hd : h.mat.det ≠ 0) :
    (dmat3Inv (dmat3Inv h).1).1 = h := by
  have h1 := (c57_inv h hd).2
  have hd' : (dmat3Inv h).1.mat.det ≠ 0 := by
    intro h0
    have := congrArg Matrix.det h1
    rw [Matrix.det_mul, h0, zero_mul, Matrix.det_one] at this
    exact zero_ne_one this
  have h2 := (c57_inv _ hd').2
  apply mat_injective
  calc (dmat3Inv (dmat3Inv h).1).1.mat
      = (dmat3Inv (dmat3Inv h).1).1.mat * ((dmat3Inv h).1.mat * h.mat) := by rw [h1, Matrix.mul_one]
    _ = h.mat := by rw [← Matrix.mul_assoc, h2, Matrix.one_mul]

/-- The backward error is the forward error of the inverse, and the symmetric error does not
change if the points are exchanged and the regular matrix is replaced with its inverse. -/
theorem c63_error_sym (h : M3 ℝ) (n : Int) (corr : List (PMatch ℝ)) (hd : h.mat.det ≠ 0) :
    transferErrorBwd Real.sqrt h n corr = transferErrorFwd Real.sqrt (dmat3Inv h).1 n (corr.map PMatch.swap) ∧
      ∀ a b, transferErrorFwd Real.sqrt h n corr = .ok (some a) → transferErrorBwd Real.sqrt h n corr = .ok (some b) →
        transferErrorSym Real.sqrt h n corr = .ok (some ((a + b) / 2)) ∧
        transferErrorSym Real.sqrt (dmat3Inv h).1 n (corr.map PMatch.swap) = .ok (some ((a + b) / 2)) := by
  have hb : transferErrorBwd Real.sqrt h n corr
      = transferErrorFwd Real.sqrt (dmat3Inv h).1 n (corr.map PMatch.swap) := by
    simp only [transferErrorBwd, transferErrorFwd]
    rw [errorLoop_swap (fun c => ((transferFwd (dmat3Inv h).1 c.xp).1, c.x))
      (fun c => ((transferFwd (dmat3Inv h).1 c.x).1, c.xp)) fun c => rfl]
  have hf : transferErrorBwd Real.sqrt (dmat3Inv h).1 n (corr.map PMatch.swap)
      = transferErrorFwd Real.sqrt h n corr := by
    simp only [transferErrorBwd, transferErrorFwd, dmat3Inv_inv h hd]
    rw [errorLoop_swap (fun c => ((transferFwd h c.x).1, c.xp)) (fun c => ((transferFwd h c.xp).1, c.x)) fun c => rfl]
  refine ⟨hb, ?_⟩
  intro a b ha hbb
  constructor
  · rw [transferErrorSym, ha, hbb]
    simp only [Res.ok_bind, Option.bind_some, Option.map_some, Res.pure_eq, Res.ok.injEq, Option.some.injEq]
    ring
  · rw [transferErrorSym, hf, ha, ← hb, hbb]
    simp only [Res.ok_bind, Option.bind_some, Option.map_some, Res.pure_eq, Res.ok.injEq, Option.some.injEq]
    ring

/-- The images of the corners of the square with corners (±1, ±1). -/
structure SquareImage (h : M3 ℝ) (A B C D : ℝ × ℝ) : Prop where
  hA : Projects h.mat (-1, -1) A
  hB : Projects h.mat (1, -1) B
  hC : Projects h.mat (1, 1) C
  hD : Projects h.mat (-1, 1) D

/-- The scalar product of the diagonals of a quadrangle. -/
def diagDot (A B C D : ℝ × ℝ) : ℝ := (C.1 - A.1) * (B.1 - D.1) + (C.2 - A.2) * (B.2 - D.2)

/-- The square of the distance. -/
def distSq2 (p q : ℝ × ℝ) : ℝ := (p.1 - q.1) ^ 2 + (p.2 - q.2) ^ 2

theorem distSq2_pos {p q : ℝ × ℝ} (h : p ≠ q) : 0 < distSq2 p q := by
  have h1 := sq_nonneg (p.1 - q.1)
  have h2 := sq_nonneg (p.2 - q.2)
  rcases (add_nonneg h1 h2).lt_or_eq with h3 | h3
  · exact h3
  · exfalso
    have e1 : p.1 - q.1 = 0 := pow_eq_zero_iff (two_ne_zero) |>.mp (by linarith)
    have e2 : p.2 - q.2 = 0 := pow_eq_zero_iff (two_ne_zero) |>.mp (by linarith)
    exact h (Prod.ext (by linarith) (by linarith))

theorem checkCorners_iff (A B C D : ℝ × ℝ) (m : ℝ) :
    checkCorners A B C D m = true ↔
      0 < area2 A B C ∧ 0 < area2 A C D ∧ |diagDot A B C D| ≤ m * (distSq2 A C * distSq2 B D) := by
  have e1 : (lineEqn2d A C).e0 * (lineEqn2d A C).e0 + (lineEqn2d A C).e1 * (lineEqn2d A C).e1 = distSq2 A C := by
    simp only [lineEqn2d, distSq2]
    ring
  have e2 : (B.1 - D.1) * (B.1 - D.1) + (B.2 - D.2) * (B.2 - D.2) = distSq2 B D := by
    simp only [distSq2]
    ring
  simp only [checkCorners, e1, e2]
  by_cases hAC : A = C
  · subst hAC
    have h0 : distSq2 A A = 0 := by simp [distSq2]
    have h1 : area2 A B A = 0 := by simp [area2]
    simp [h0, h1]
  have hp := distSq2_pos hAC
  rw [if_neg hp.ne']
  by_cases hBD : B = D
  · subst hBD
    have h0 : distSq2 B B = 0 := by simp [distSq2]
    have h1 : area2 A C B = - area2 A B C := by
      simp only [area2]
      ring
    rw [if_pos h0, h1]
    simp only [Bool.false_eq_true, false_iff]
    rintro ⟨ha, hb, _⟩
    linarith
  have hq := distSq2_pos hBD
  rw [if_neg hq.ne', decide_eq_true_eq]
  have hb : (lineEqn2d A C).e0 * (1 / distSq2 A C) * B.1 + (lineEqn2d A C).e1 * (1 / distSq2 A C) * B.2
      + (lineEqn2d A C).e2 * (1 / distSq2 A C) = area2 A B C * (1 / distSq2 A C) := by
    simp only [lineEqn2d, area2]
    ring
  have hd : (lineEqn2d A C).e0 * (1 / distSq2 A C) * D.1 + (lineEqn2d A C).e1 * (1 / distSq2 A C) * D.2
      + (lineEqn2d A C).e2 * (1 / distSq2 A C) = -(area2 A C D * (1 / distSq2 A C)) := by
    simp only [lineEqn2d, area2]
    ring
  have hc : -((lineEqn2d A C).e1 * (1 / distSq2 A C)) * ((B.1 - D.1) * (1 / distSq2 B D))
      + (lineEqn2d A C).e0 * (1 / distSq2 A C) * ((B.2 - D.2) * (1 / distSq2 B D))
      = diagDot A B C D / (distSq2 A C * distSq2 B D) := by
    simp only [lineEqn2d, diagDot]
    field_simp
    ring
  rw [hb, hd, hc]
  have hpi : 0 < 1 / distSq2 A C := one_div_pos.mpr hp
  have hpq : 0 < distSq2 A C * distSq2 B D := mul_pos hp hq
  rw [gt_iff_lt, mul_pos_iff_of_pos_right hpi, neg_lt_zero, mul_pos_iff_of_pos_right hpi, ← abs_eq_max_neg, abs_div,
    abs_of_pos hpq, div_le_iff₀ hpq, and_assoc]

/-- What `nx_homography_check` checks: the corners of the square have images, which form a quadrangle that is not mirrored
(both triangles along a diagonal have positive area), and the scalar product of the
diagonals is at most `max_abs_cos` times the product of the *squares* of their lengths. -/
theorem c64_check (h : M3 ℝ) (m : ℝ) :
    homographyCheck h m = true ↔ ∃ A B C D, SquareImage h A B C D ∧ 0 < area2 A B C ∧ 0 < area2 A C D ∧
      |diagDot A B C D| ≤ m * (distSq2 A C * distSq2 B D) := by
  have key : ∀ (p : ℝ × ℝ) (s a b : ℝ), h.e2 * p.1 + h.e5 * p.2 + h.e8 = s → s ≠ 0 →
      h.e0 * p.1 + h.e3 * p.2 + h.e6 = a → h.e1 * p.1 + h.e4 * p.2 + h.e7 = b →
      Projects h.mat p (a * (1 / s), b * (1 / s)) := by
    rintro p s a b e hs rfl rfl
    rw [projects_iff, e]
    exact ⟨hs, by field_simp, by field_simp⟩
  have hneg : ∀ p q : ℝ × ℝ, Projects h.mat p q → h.e2 * p.1 + h.e5 * p.2 + h.e8 ≠ 0 := fun p q hp =>
    ((projects_iff h p q).mp hp).1
  simp only [homographyCheck]
  by_cases hz : -(h.e2 + h.e5) + h.e8 = 0 ∨ h.e2 - h.e5 + h.e8 = 0 ∨ h.e2 + h.e5 + h.e8 = 0 ∨ -(h.e2 - h.e5) + h.e8 = 0
  · rw [if_pos hz]
    simp only [Bool.false_eq_true, false_iff]
    rintro ⟨A, B, C, D, ⟨hA, hB, hC, hD⟩, _⟩
    have := hneg _ _ hA
    have := hneg _ _ hB
    have := hneg _ _ hC
    have := hneg _ _ hD
    simp only at *
    grind
  · rw [if_neg hz, checkCorners_iff]
    simp only [not_or] at hz
    obtain ⟨z1, z2, z3, z4⟩ := hz
    have hA := key (-1, -1) _ (-(h.e0 + h.e3) + h.e6) (-(h.e1 + h.e4) + h.e7) (by ring) z1 (by ring) (by ring)
    have hB := key (1, -1) _ (h.e0 - h.e3 + h.e6) (h.e1 - h.e4 + h.e7) (by ring) z2 (by ring) (by ring)
    have hC := key (1, 1) _ (h.e0 + h.e3 + h.e6) (h.e1 + h.e4 + h.e7) (by ring) z3 (by ring) (by ring)
    have hD := key (-1, 1) _ (-(h.e0 - h.e3) + h.e6) (-(h.e1 - h.e4) + h.e7) (by ring) z4 (by ring) (by ring)
    constructor
    · intro hc
      exact ⟨_, _, _, _, ⟨hA, hB, hC, hD⟩, hc⟩
    · rintro ⟨A, B, C, D, ⟨hA', hB', hC', hD'⟩, hc⟩
      rw [hA.unique hA', hB.unique hB', hC.unique hC', hD.unique hD']
      exact hc

/-- The intended condition: the quadrangle is not mirrored and the absolute value of the cosine of the angle between its
diagonals is at most `m` (written without the division). -/
def NotSkewed (A B C D : ℝ × ℝ) (m : ℝ) : Prop :=
  0 < area2 A B C ∧ 0 < area2 A C D ∧ |diagDot A B C D| ≤ m * Real.sqrt (distSq2 A C * distSq2 B D)

/-- The check implies the intended condition for images so small that the product of the lengths of the
diagonals is at most one, and is implied by it if that product is at least one. -/
theorem c64_check_partial (h : M3 ℝ) (m : ℝ) (hm : 0 ≤ m) (A B C D : ℝ × ℝ) (hi : SquareImage h A B C D) :
    (distSq2 A C * distSq2 B D ≤ 1 → homographyCheck h m = true → NotSkewed A B C D m) ∧
      (1 ≤ distSq2 A C * distSq2 B D → NotSkewed A B C D m → homographyCheck h m = true) := by
  have h0 : 0 ≤ distSq2 A C * distSq2 B D := by
    simp only [distSq2]
    positivity
  have hs := Real.sq_sqrt h0
  have hn := Real.sqrt_nonneg (distSq2 A C * distSq2 B D)
  constructor
  · intro hp hc
    obtain ⟨A', B', C', D', ⟨hA, hB, hC, hD⟩, h1, h2, h3⟩ := (c64_check h m).mp hc
    rw [hA.unique hi.hA, hB.unique hi.hB, hC.unique hi.hC, hD.unique hi.hD] at *
    refine ⟨h1, h2, h3.trans (mul_le_mul_of_nonneg_left ?_ hm)⟩
    have : Real.sqrt (distSq2 A C * distSq2 B D) ≤ 1 := Real.sqrt_le_one.mpr hp
    nlinarith
  · intro hp hc
    refine (c64_check h m).mpr ⟨A, B, C, D, hi, hc.1, hc.2.1, hc.2.2.trans (mul_le_mul_of_nonneg_left ?_ hm)⟩
    have : 1 ≤ Real.sqrt (distSq2 A C * distSq2 B D) := Real.one_le_sqrt.mpr hp
    nlinarith

/-- The matrix of a scaling of the axes. -/
def diagM3 (a b : ℝ) : M3 ℝ := ⟨a, 0, 0, 0, b, 0, 0, 0, 1⟩

theorem diagM3_image (a b : ℝ) : SquareImage (diagM3 a b) (-a, -b) (a, -b) (a, b) (-a, b) := by
  constructor <;> rw [projects_iff] <;> simp [diagM3]

/-- The check depends on the scale: with the bound used in `nx_homography_estimate_ransac` (here 24/25) it refuses a small image of a square
whose diagonals meet at an angle with cosine 3/5, and accepts a large one with cosine 9999/10001. -/
theorem c64_check_scale :
    homographyCheck (diagM3 (1 / 5) (1 / 10)) (24 / 25) = false ∧
      NotSkewed (-1 / 5, -1 / 10) (1 / 5, -1 / 10) (1 / 5, 1 / 10) (-1 / 5, 1 / 10) (24 / 25) ∧
      homographyCheck (diagM3 100 1) (24 / 25) = true ∧
      ¬ NotSkewed (-100, -1) (100, -1) (100, 1) (-100, 1) (24 / 25) := by
  refine ⟨?_, ?_, ?_, ?_⟩
  · rw [Bool.eq_false_iff]
    intro hc
    obtain ⟨A, B, C, D, ⟨hA, hB, hC, hD⟩, h1, h2, h3⟩ := (c64_check _ _).mp hc
    have hi := diagM3_image (1 / 5) (1 / 10)
    rw [hA.unique hi.hA, hB.unique hi.hB, hC.unique hi.hC, hD.unique hi.hD] at h3
    norm_num [diagDot, distSq2] at h3
  · refine ⟨by norm_num [area2], by norm_num [area2], ?_⟩
    have : Real.sqrt (distSq2 (-1 / 5, -1 / 10) (1 / 5, 1 / 10) * distSq2 (1 / 5, -1 / 10) (-1 / 5, 1 / 10)) = 1 / 5 := by
      rw [show distSq2 (-1 / 5, -1 / 10) (1 / 5, 1 / 10) * distSq2 (1 / 5, -1 / 10) (-1 / 5, 1 / 10) = (1 / 5) ^ 2 by
        norm_num [distSq2]]
      exact Real.sqrt_sq (by norm_num)
    rw [this]
    norm_num [diagDot]
  · refine (c64_check _ _).mpr ⟨_, _, _, _, diagM3_image 100 1, ?_, ?_, ?_⟩ <;> norm_num [area2, diagDot, distSq2]
  · rintro ⟨_, _, h3⟩
    have : Real.sqrt (distSq2 (-100, -1) (100, 1) * distSq2 (100, -1) (-100, 1)) = 40004 := by
      rw [show distSq2 (-100, -1) (100, 1) * distSq2 (100, -1) (-100, 1) = 40004 ^ 2 by norm_num [distSq2]]
      exact Real.sqrt_sq (by norm_num)
    rw [this] at h3
    norm_num [diagDot] at h3

/-- Two correspondences of a translation, one of them wrong. -/
example :
    let corr : List (PMatch ℚ) := [⟨(0, 0), (1, 2), 0, 1, 1, 7, 8, false⟩, ⟨(1, 1), (5, 5), 0, 1, 1, 9, 3, true⟩]
    markInliers ⟨1, 0, 0, 0, 1, 0, 1, 2, 1⟩ 2 corr 1
      = .ok ([⟨(0, 0), (1, 2), 0, 1, 1, 7, 8, true⟩, ⟨(1, 1), (5, 5), 0, 1, 1, 9, 3, false⟩], 1) := by
  decide +kernel

end Nx
