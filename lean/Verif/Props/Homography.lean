import Verif.Lemmas.Homography
import Verif.Props.Mat
import Verif.Props.Transform2D

/-!
# C61: homographies from four points, transfer of points
-/

namespace Nx

variable {K : Type} [Field K] [DecidableEq K]

/-- `nx_homography_transfer_fwd` computes the image of the point under the transformation; the
returned value is zero exactly if there is none. -/
theorem c61_transfer (h : M3 K) (p : K × K) :
    (∀ q, (transferFwd h p).1 = some q ↔ Projects h.mat p q) ∧
      ((transferFwd h p).2 = 0 ↔ ∀ q, ¬ Projects h.mat p q) := by
  refine ⟨fun q => transferFwd_eq_some h p q, ?_⟩
  rw [← transferFwd_eq_none]
  simp only [transferFwd]
  split
  · simp [*]
  · simp [*]

/-- Transfer by a product is transfer by the factors one after the other. -/
theorem c61_transfer_mul (a b : M3 K) (p q r : K × K) (h1 : (transferFwd b p).1 = some q)
    (h2 : (transferFwd a q).1 = some r) : (transferFwd (dmat3Mul a b) p).1 = some r := by
  rw [transferFwd_eq_some] at h1 h2 ⊢
  rw [c57_mul]
  exact h1.comp h2

/-- Transfer by the inverse undoes the transfer. -/
theorem c61_transfer_inv (a : M3 K) (p q : K × K) (hd : a.mat.det ≠ 0) (h1 : (transferFwd a p).1 = some q) :
    (transferFwd (dmat3Inv a).1 q).1 = some p := by
  rw [transferFwd_eq_some] at h1 ⊢
  exact h1.inv (c57_inv a hd).2

/-- If `nx_homography_estimate_4pt` does not return zero, then the four target points are in
general position, and if the source points are too and the determinant of their own computation is
not zero, `h` takes each of the four points to its correspondence, is regular, and
any other such transformation is a multiple of it. -/
theorem c61_4pt_partial (h h' : M3 K) (det : K) (ids : Fin 4 → Int) (corr : List (PMatch K)) (x : A8 K)
    (hr : estimate4pt h ids corr = .ok (h', det)) (hdet : det ≠ 0)
    (hx : gather PMatch.x ids corr = .ok x) (hg : General x.pt) (hdx : (estimateUnit x).2 ≠ 0) :
    ∃ c : Fin 4 → PMatch K, (∀ i, 0 ≤ ids i ∧ corr[(ids i).toNat]? = some (c i)) ∧
      General (fun i => (c i).xp) ∧ h'.mat.det ≠ 0 ∧
      (∀ i, (transferFwd h' (c i).x).1 = some (c i).xp) ∧
      ∀ B : Matrix (Fin 3) (Fin 3) K, (∀ i, Projects B (c i).x (c i).xp) → ∃ k : K, k ≠ 0 ∧ B = k • h'.mat := by
  simp only [estimate4pt, hx, Res.ok_bind, Res.bind_eq_ok, Res.pure_eq, Res.ok.injEq] at hr
  obtain ⟨xp, hxp, hr⟩ := hr
  obtain ⟨c, hc, hcx⟩ := gather_ok hx
  obtain ⟨c', hc', hcxp⟩ := gather_ok hxp
  have hcc : ∀ i, c' i = c i := by
    intro i
    have := (hc i).2
    rw [(hc' i).2] at this
    exact Option.some.inj this
  simp only [fourFrom] at hr
  by_cases hd1 : (estimateUnit xp).2 = 0
  · rw [if_pos hd1] at hr
    simp only [Prod.mk.injEq] at hr
    exact absurd hr.2.symm hdet
  rw [if_neg hd1] at hr
  by_cases hd2 : dmat3Det (estimateUnit xp).1 = 0
  · rw [if_pos hd2] at hr
    simp only [Prod.mk.injEq] at hr
    exact absurd hr.2.symm hdet
  rw [if_neg hd2] at hr
  simp only [Prod.mk.injEq] at hr
  obtain ⟨rfl, rfl⟩ := hr
  rw [c57_det] at hd2
  have hgp : General xp.pt := (c60_perspective_regular xp hd1).mp hd2
  have hptx : ∀ i, x.pt i = (c i).x := hcx
  have hptxp : ∀ i, xp.pt i = (c i).xp := by
    intro i
    rw [hcxp i, hcc i]
  have hinv := (c57_inv _ hd2).2
  have hinv' := (c57_inv _ hd2).1
  have hux : (estimateUnit x).1.mat.det ≠ 0 := (c60_perspective_regular x hdx).mpr hg
  have hmat := c57_mul (dmat3Inv (estimateUnit xp).1).1 (estimateUnit x).1
  refine ⟨c, hc, ?_, ?_, ?_, ?_⟩
  · have : (fun i => (c i).xp) = xp.pt := by
      funext i
      exact (hptxp i).symm
    rw [this]
    exact hgp
  · rw [hmat, Matrix.det_mul]
    refine mul_ne_zero ?_ hux
    intro h0
    have := congrArg Matrix.det hinv
    rw [Matrix.det_mul, h0, zero_mul, Matrix.det_one] at this
    exact zero_ne_one this
  · intro i
    rw [transferFwd_eq_some, hmat, ← hptx, ← hptxp]
    exact (c60_perspective x hg hdx i).comp ((c60_perspective xp hgp hd1 i).inv hinv)
  · intro B hB
    have hB' : ∀ i, Projects ((estimateUnit xp).1.mat * B) (x.pt i) (unitCorner i) := by
      intro i
      have := hB i
      rw [← hptx, ← hptxp] at this
      exact this.comp (c60_perspective xp hgp hd1 i)
    obtain ⟨k, hk, hkB⟩ := c60_perspective_unique x hg hdx _ hB'
    refine ⟨k, hk, ?_⟩
    rw [hmat, ← Matrix.mul_smul, ← hkB, ← Matrix.mul_assoc, hinv, Matrix.one_mul]

/-- Four points with a repeated index (or repeated target points) are always refused. -/
theorem c61_4pt_repeated (h h' : M3 K) (det : K) (ids : Fin 4 → Int) (corr : List (PMatch K))
    (hr : estimate4pt h ids corr = .ok (h', det)) (i j : Fin 4) (hij : i ≠ j) (hid : ids i = ids j) :
    det = 0 ∧ h' = h := by
  simp only [estimate4pt, Res.bind_eq_ok, Res.pure_eq, Res.ok.injEq] at hr
  obtain ⟨x, hx, xp, hxp, hr⟩ := hr
  obtain ⟨c, hc, hcxp⟩ := gather_ok hxp
  have hpt : xp.pt i = xp.pt j := by
    have h1 := (hc i).2
    rw [hid, (hc j).2] at h1
    rw [hcxp, hcxp, Option.some.inj h1]
  have hng : ¬ General xp.pt := by
    rintro ⟨h0, h1, h2, h3⟩
    generalize xp.pt = p at hpt h0 h1 h2 h3
    fin_cases i <;> fin_cases j <;> simp [area2] at * <;> grind
  simp only [fourFrom] at hr
  by_cases hd1 : (estimateUnit xp).2 = 0
  · rw [if_pos hd1] at hr
    simp only [Prod.mk.injEq] at hr
    exact ⟨hr.2.symm, hr.1.symm⟩
  rw [if_neg hd1] at hr
  by_cases hd2 : dmat3Det (estimateUnit xp).1 = 0
  · rw [if_pos hd2] at hr
    simp only [Prod.mk.injEq] at hr
    exact ⟨hr.2.symm, hr.1.symm⟩
  · rw [c57_det] at hd2
    exact absurd ((c60_perspective_regular xp hd1).mp hd2) hng

/-- Correspondences from the points `x` to the points `xp`. -/
def corrOf (x xp : Fin 4 → ℚ × ℚ) : List (PMatch ℚ) :=
  (List.finRange 4).map fun i => ⟨x i, xp i, 0, 1, 1, 0, 0, false⟩

/-- A rectangle. -/
def rect4 : Fin 4 → ℚ × ℚ := ![(1, 1), (3, 1), (3, 2), (1, 2)]

/-- `nx_homography_estimate_4pt` does not check the source points: for three of them on a line it
returns a value other than zero and a singular matrix, which takes three of the points
nowhere. -/
theorem c61_4pt_unchecked :
    let corr := corrOf ![(1, 1), (3, 1), (2, 5), (2, 1)] rect4
    ∃ h det, estimate4pt dmat3Eye ![0, 1, 2, 3] corr = .ok (h, det) ∧ det ≠ 0 ∧ dmat3Det h = 0 ∧
      (transferFwd h (1, 1)).1 = none ∧ (transferFwd h (3, 1)).1 = none ∧ (transferFwd h (2, 1)).1 = none := by
  refine ⟨_, _, rfl, ?_⟩
  decide +kernel

/-- It fails for some four target points in general position, although the homography exists. -/
theorem c61_4pt_incomplete :
    General trapezoid.pt ∧ (∃ r, estimate4pt dmat3Eye ![0, 1, 2, 3] (corrOf rect4 trapezoid.pt) = .ok (r, 0)) ∧
      ∃ B : Matrix (Fin 3) (Fin 3) ℚ, B.det ≠ 0 ∧ ∀ i, Projects B (rect4 i) (trapezoid.pt i) := by
  refine ⟨c60_perspective_incomplete.1, ⟨dmat3Eye, by decide +kernel⟩, ?_⟩
  refine ⟨!![1, 0, -2; 0, 0, 1; 0, -1/2, 3/2], ?_, ?_⟩
  · simp [Matrix.det_fin_three]
  · intro i
    have h : Projects (⟨1, 0, 0, 0, 0, -1/2, -2, 1, 3/2⟩ : M3 ℚ).mat (rect4 i) (trapezoid.pt i) := by
      rw [projects_iff]
      fin_cases i <;> simp [rect4, trapezoid, A8.pt] <;> norm_num
    exact h

/-- The hypotheses of the first theorem are met by four points in general position. -/
example :
    let corr := corrOf ![(1, 1), (4, 2), (5, 6), (0, 4)] rect4
    ∃ h det x, estimate4pt dmat3Eye ![0, 1, 2, 3] corr = .ok (h, det) ∧ det ≠ 0 ∧
      gather PMatch.x ![0, 1, 2, 3] corr = .ok x ∧ General x.pt ∧ (estimateUnit x).2 ≠ 0 := by
  refine ⟨_, _, ⟨1, 1, 4, 2, 5, 6, 0, 4⟩, rfl, ?_, rfl, ?_, ?_⟩
  · decide +kernel
  · simp [General, A8.pt, area2]
    norm_num
  · decide +kernel

end Nx
