import Verif.Lemmas.Transform2D
import Verif.Model.Homography
import Verif.Lemmas.Sample

/-!
# Lemmas on homographies
-/

namespace Nx

section
variable {K : Type} [Field K]

/-- Composition of plane transformations. -/
theorem Projects.comp {A B : Matrix (Fin 3) (Fin 3) K} {p q r : K × K} (h1 : Projects B p q) (h2 : Projects A q r) :
    Projects (A * B) p r := by
  obtain ⟨s, hs, e⟩ := h1
  obtain ⟨t, ht, f⟩ := h2
  refine ⟨s * t, mul_ne_zero hs ht, ?_⟩
  rw [← Matrix.mulVec_mulVec, e, Matrix.mulVec_smul, f, smul_smul]

/-- Inversion of plane transformations. -/
theorem Projects.inv {A B : Matrix (Fin 3) (Fin 3) K} {p q : K × K} (h : B * A = 1) (h1 : Projects A p q) :
    Projects B q p := by
  obtain ⟨s, hs, e⟩ := h1
  refine ⟨s⁻¹, inv_ne_zero hs, ?_⟩
  have : B.mulVec (A.mulVec (hom2 p)) = hom2 p := by rw [Matrix.mulVec_mulVec, h, Matrix.one_mulVec]
  rw [e, Matrix.mulVec_smul] at this
  rw [← this, smul_smul, inv_mul_cancel₀ hs, one_smul]

theorem projects_iff (h : M3 K) (p q : K × K) :
    Projects h.mat p q ↔ h.e2 * p.1 + h.e5 * p.2 + h.e8 ≠ 0 ∧
      h.e0 * p.1 + h.e3 * p.2 + h.e6 = (h.e2 * p.1 + h.e5 * p.2 + h.e8) * q.1 ∧
      h.e1 * p.1 + h.e4 * p.2 + h.e7 = (h.e2 * p.1 + h.e5 * p.2 + h.e8) * q.2 := by
  constructor
  · rintro ⟨s, hs, e⟩
    rw [mulVec_hom2, smul_hom2] at e
    have e0 := congrFun e 0
    have e1 := congrFun e 1
    have e2 := congrFun e 2
    simp at e0 e1 e2
    rw [e2]
    exact ⟨hs, e0, e1⟩
  · rintro ⟨hs, e0, e1⟩
    refine ⟨_, hs, ?_⟩
    rw [mulVec_hom2, smul_hom2, e0, e1]

/-- The image of a point is unique. -/
theorem Projects.unique {h : M3 K} {p q r : K × K} (h1 : Projects h.mat p q) (h2 : Projects h.mat p r) : q = r := by
  rw [projects_iff] at h1 h2
  obtain ⟨hs, a, b⟩ := h1
  obtain ⟨_, c, d⟩ := h2
  exact Prod.ext (mul_left_cancel₀ hs (a.symm.trans c)) (mul_left_cancel₀ hs (b.symm.trans d))

variable [DecidableEq K]

/-- `transferFwd` computes the image of the point. -/
theorem transferFwd_eq_some (h : M3 K) (p q : K × K) : (transferFwd h p).1 = some q ↔ Projects h.mat p q := by
  rw [projects_iff]
  simp only [transferFwd]
  generalize h.e2 * p.1 + h.e5 * p.2 + h.e8 = s
  generalize h.e0 * p.1 + h.e3 * p.2 + h.e6 = a
  generalize h.e1 * p.1 + h.e4 * p.2 + h.e7 = b
  by_cases hs : s = 0
  · simp [hs]
  · rw [if_neg hs]
    obtain ⟨q1, q2⟩ := q
    simp only [Option.some.injEq, Prod.mk.injEq, ne_eq, hs, not_false_eq_true, true_and]
    constructor
    · rintro ⟨rfl, rfl⟩
      constructor <;> field_simp
    · rintro ⟨rfl, rfl⟩
      constructor <;> field_simp

theorem transferFwd_eq_none (h : M3 K) (p : K × K) : (transferFwd h p).1 = none ↔ ∀ q, ¬ Projects h.mat p q := by
  constructor
  · intro hn q hq
    rw [(transferFwd_eq_some h p q).mpr hq] at hn
    cases hn
  · intro hq
    cases hc : (transferFwd h p).1 with
    | none => rfl
    | some q => exact absurd ((transferFwd_eq_some h p q).mp hc) (hq q)

omit [Field K] [DecidableEq K] in
theorem gather_ok {sel : PMatch K → K × K} {ids : Fin 4 → Int} {corr : List (PMatch K)} {x : A8 K}
    (h : gather sel ids corr = .ok x) :
    ∃ c : Fin 4 → PMatch K, (∀ i, 0 ≤ ids i ∧ corr[(ids i).toNat]? = some (c i)) ∧ ∀ i, x.pt i = sel (c i) := by
  simp only [gather, Res.bind_eq_ok, Res.pure_eq, Res.ok.injEq] at h
  obtain ⟨a, ha, b, hb, c, hc, d, hd, rfl⟩ := h
  have key : ∀ {i : Int} {v : PMatch K}, readI corr i = .ok v → 0 ≤ i ∧ corr[i.toNat]? = some v := by
    intro i v hv
    simp only [readI] at hv
    split at hv
    · rename_i h0
      refine ⟨h0, ?_⟩
      simp only [readAt] at hv
      split at hv
      · rename_i hh
        rw [hh]
        cases hv
        rfl
      · cases hv
    · cases hv
  refine ⟨![a, b, c, d], ?_, ?_⟩
  · intro i
    fin_cases i
    · exact key ha
    · exact key hb
    · exact key hc
    · exact key hd
  · intro i
    fin_cases i <;> rfl

end

end Nx
