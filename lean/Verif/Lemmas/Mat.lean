import Mathlib.Algebra.BigOperators.Fin
import Verif.Spec.Mat
import Verif.Lemmas.Sample

/-!
# Lemmas about matrices of any size
-/

namespace Nx

theorem idx32_ok {i : Nat} (h : i ≤ 2147483647) : idx32 i = .ok i := if_pos h

theorem forLoop_congr {σ : Type} {n : Nat} {f g : Nat → σ → Res σ} {i : Nat} {s : σ}
    (h : ∀ i s, i < n → f i s = g i s) : forLoop n f i s = forLoop n g i s := by
  induction hk : n - i generalizing i s with
  | zero => rw [forLoop.eq_def n f, forLoop.eq_def n g, if_neg (by omega), if_neg (by omega)]
  | succ k ih =>
    rw [forLoop.eq_def n f, forLoop.eq_def n g, if_pos (by omega), if_pos (by omega), h i s (by omega)]
    congr 1
    funext s'
    exact ih (by omega)

/-- Filling the elements of a matrix stored with a leading dimension. -/
structure ColFilled {α : Type} (ld H w : Nat) (f : Nat → Nat → α) (d0 : List α) (c r : Nat) (d : List α) : Prop where
  len : d.length = d0.length
  here : ∀ r' c', r' < w → c' < H → (c' < c ∨ (c' = c ∧ r' < r)) → d[c' * ld + r']? = some (f r' c')
  other : ∀ i, (∀ r' c', r' < w → c' < H → i ≠ c' * ld + r') → d[i]? = d0[i]?

theorem col_fill_spec {α : Type} {ld H w : Nat} {f : Nat → Nat → α} {body : Nat → Nat → List α → Res (List α)}
    (hst : w ≤ ld) {d0 : List α} (hin : ∀ r c, r < w → c < H → c * ld + r < d0.length)
    (hb : ∀ c r d, c < H → r < w → d.length = d0.length → body c r d = .ok (d.set (c * ld + r) (f r c))) :
    ∃ d, forLoop H (fun c d => forLoop w (body c) 0 d) 0 d0 = .ok d ∧ ColFilled ld H w f d0 H 0 d := by
  apply forLoop_spec (fun c d => ColFilled ld H w f d0 c 0 d) (Nat.zero_le _)
  · exact ⟨rfl, by intro r' c' _ _ h; omega, fun _ _ => rfl⟩
  · intro c d _ hc hP
    obtain ⟨d', e, hP'⟩ := forLoop_spec (n := w) (body := body c) (i0 := 0) (s := d)
      (fun r d => ColFilled ld H w f d0 c r d) (Nat.zero_le _) hP (by
        intro r d _ hr hP
        refine ⟨_, hb c r d hc hr hP.len, by rw [List.length_set]; exact hP.len, ?_, ?_⟩
        · intro r' c' hr' hc' h
          rw [List.getElem?_set]
          by_cases he : c * ld + r = c' * ld + r'
          · obtain ⟨e1, e2⟩ := pixIdx_inj (by omega) (by omega) he
            rw [if_pos he, if_pos (by rw [hP.len]; exact hin r c hr hc), e1, e2]
          · rw [if_neg he]
            apply hP.here r' c' hr' hc'
            by_cases h1 : c' = c ∧ r' = r
            · rw [h1.1, h1.2] at he
              exact absurd rfl he
            · omega
        · intro i hi
          rw [List.getElem?_set, if_neg (fun h => hi r c hr hc h.symm)]
          exact hP.other i hi)
    refine ⟨d', e, hP'.len, ?_, hP'.other⟩
    intro r' c' hr' hc' h
    apply hP'.here r' c' hr' hc'
    omega

variable {K : Type} [Field K]

theorem dmatMulEntry_spec {m n k : Nat} {A : List K} {ldA : Nat} {B : List K} {ldB : Nat} {C : List K} {ldC : Nat}
    {Am : Matrix (Fin m) (Fin k) K} {Bm : Matrix (Fin k) (Fin n) K} (hA : Stores A m k ldA Am)
    (hB : Stores B k n ldB Bm) (lA : A.length ≤ 2147483648) (lB : B.length ≤ 2147483648)
    (lC : C.length ≤ 2147483648) {c r : Nat} (hr : r < m) (hc : c < n) (hi : c * ldC + r < C.length) :
    dmatMulEntry k A ldA B ldB ldC c r C = .ok (C.set (c * ldC + r) ((Am * Bm) ⟨r, hr⟩ ⟨c, hc⟩)) := by
  unfold dmatMulEntry
  rw [idx32_ok (by omega)]
  simp only [Res.ok_bind]
  rw [writeAt_ok _ hi]
  simp only [Res.ok_bind]
  obtain ⟨C', e, hP⟩ := forLoop_spec (n := k) (body := dmatMulStep A ldA B ldB ldC c r) (i0 := 0)
    (s := C.set (c * ldC + r) 0)
    (fun j D => D = C.set (c * ldC + r)
      (∑ i : Fin k, if i.val < j then Am ⟨r, hr⟩ i * Bm i ⟨c, hc⟩ else 0)) (Nat.zero_le _) (by simp) (by
      intro j D _ hj hD
      have ea := hA ⟨r, hr⟩ ⟨j, hj⟩
      have eb := hB ⟨j, hj⟩ ⟨c, hc⟩
      simp only at ea eb
      have la : j * ldA + r < A.length := by
        by_contra h
        rw [List.getElem?_eq_none (by omega)] at ea
        cases ea
      have lb : c * ldB + j < B.length := by
        by_contra h
        rw [List.getElem?_eq_none (by omega)] at eb
        cases eb
      refine ⟨_, ?_, rfl⟩
      unfold dmatMulStep
      rw [idx32_ok (by omega), idx32_ok (by omega), idx32_ok (by omega)]
      simp only [Res.ok_bind]
      subst hD
      rw [readAt_ok (by rw [List.length_set]; exact hi), readAt_some ea, readAt_some eb]
      simp only [Res.ok_bind]
      rw [writeAt_ok _ (by rw [List.length_set]; exact hi), List.getElem_set_self, List.set_set]
      congr 2
      have hs : (∑ i : Fin k, if i.val < j + 1 then Am ⟨r, hr⟩ i * Bm i ⟨c, hc⟩ else 0) =
          ∑ i : Fin k, ((if i.val < j then Am ⟨r, hr⟩ i * Bm i ⟨c, hc⟩ else 0) +
            if i = (⟨j, hj⟩ : Fin k) then Am ⟨r, hr⟩ i * Bm i ⟨c, hc⟩ else 0) := by
        apply Finset.sum_congr rfl
        intro i _
        by_cases h1 : i.val < j
        · have h2 : i ≠ ⟨j, hj⟩ := fun h => by rw [h] at h1; simp at h1
          rw [if_pos h1, if_pos (by omega), if_neg h2, add_zero]
        · by_cases h2 : i = ⟨j, hj⟩
          · rw [if_neg h1, if_pos h2, if_pos (by rw [h2]; simp), zero_add]
          · have h3 : ¬ i.val < j + 1 := fun h => h2 (Fin.ext (by simp only; omega))
            rw [if_neg h1, if_neg h2, if_neg h3, add_zero]
      rw [hs, Finset.sum_add_distrib, Finset.sum_ite_eq' Finset.univ]
      simp)
  rw [e, hP, Matrix.mul_apply]
  congr 2
  apply Finset.sum_congr rfl
  intro i _
  rw [if_pos i.isLt]

end Nx
