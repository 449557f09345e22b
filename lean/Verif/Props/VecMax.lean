import Verif.Model.VecMax

/-! # C52: index of the maximum -/

namespace Nx

/-- `k` is the first index at which the ordered elements of `v` reach their maximum.
`key` gives the place of an element in the order, `none` if it is unordered. -/
def FirstMax {α : Type} (key : α → Option Int) (v : List α) (k : Nat) : Prop :=
  ∃ x m, v[k]? = some x ∧ key x = some m ∧ (∀ y ∈ v, ∀ n, key y = some n → n ≤ m) ∧
    ∀ (j : Nat) y n, j < k → v[j]? = some y → key y = some n → n < m

/-- What the loop returns from index `i` on with the current maximum `b`. -/
theorem argmaxLoop_spec {α : Type} (gt : α → α → Bool) (key : α → Option Int)
    (hgt : ∀ a b, gt a b = true ↔ ∃ x y, key a = some x ∧ key b = some y ∧ x > y) :
    ∀ (v : List α) (i : Nat) (m : Int) (b : α) (kb : Int), key b = some kb →
      ((∀ x ∈ v, ∀ kx, key x = some kx → kx ≤ kb) ∧ argmaxLoop gt i m b v = m) ∨
      (∃ k x kx, argmaxLoop gt i m b v = ((i + k : Nat) : Int) ∧ v[k]? = some x ∧ key x = some kx ∧ kx > kb ∧
        (∀ y ∈ v, ∀ n, key y = some n → n ≤ kx) ∧
        ∀ (j : Nat) y n, j < k → v[j]? = some y → key y = some n → n < kx) := by
  intro v
  induction v with
  | nil => intro i m b kb _; left; exact ⟨by simp, rfl⟩
  | cons a v ih =>
    intro i m b kb hb
    unfold argmaxLoop
    by_cases hg : gt a b = true
    · rw [if_pos hg]
      obtain ⟨ka, kb', h1, h2, h3⟩ := (hgt a b).mp hg
      rw [hb] at h2; cases h2
      right
      rcases ih (i + 1) i a ka h1 with ⟨g1, g2⟩ | ⟨k, x, kx, g1, g2, g3, g4, g5, g6⟩
      · refine ⟨0, a, ka, g2, rfl, h1, h3, ?_, by omega⟩
        intro y hy n hn
        rcases List.mem_cons.mp hy with rfl | hy
        · rw [h1] at hn; cases hn; exact Int.le_refl _
        · exact g1 y hy n hn
      · refine ⟨k + 1, x, kx, by rw [g1]; congr 1; omega, by simpa using g2, g3, by omega, ?_, ?_⟩
        · intro y hy n hn
          rcases List.mem_cons.mp hy with rfl | hy
          · rw [h1] at hn; cases hn; omega
          · exact g5 y hy n hn
        · intro j y n hj hy hn
          cases j with
          | zero =>
            simp only [List.getElem?_cons_zero, Option.some.injEq] at hy
            subst hy
            rw [h1] at hn; cases hn; omega
          | succ j => exact g6 j y n (by omega) (by simpa using hy) hn
    · rw [if_neg hg]
      have hle : ∀ ka, key a = some ka → ka ≤ kb := by
        intro ka hka
        rcases Int.lt_or_le kb ka with hlt | hle
        · exact absurd ((hgt a b).mpr ⟨ka, kb, hka, hb, hlt⟩) hg
        · exact hle
      rcases ih (i + 1) m b kb hb with ⟨g1, g2⟩ | ⟨k, x, kx, g1, g2, g3, g4, g5, g6⟩
      · left
        refine ⟨?_, g2⟩
        intro y hy n hn
        rcases List.mem_cons.mp hy with rfl | hy
        · exact hle n hn
        · exact g1 y hy n hn
      · right
        refine ⟨k + 1, x, kx, by rw [g1]; congr 1; omega, by simpa using g2, g3, g4, ?_, ?_⟩
        · intro y hy n hn
          rcases List.mem_cons.mp hy with rfl | hy
          · have := hle n hn; omega
          · exact g5 y hy n hn
        · intro j y n hj hy hn
          cases j with
          | zero =>
            simp only [List.getElem?_cons_zero, Option.some.injEq] at hy
            subst hy
            have := hle n hn; omega
          | succ j => exact g6 j y n (by omega) (by simpa using hy) hn

theorem f32Gt_iff (a b : BitVec 32) :
    f32Gt a b = true ↔ ∃ x y, f32Key a = some x ∧ f32Key b = some y ∧ x > y := by
  unfold f32Gt
  cases f32Key a <;> cases f32Key b <;> simp

/-- C52 for integers: the index of the first maximum. Missing: vectors whose elements
all are `INT_MIN`, see `c52_all_minimal`. -/
theorem c52_ivec_partial (v : List Int) (hv : ∃ x ∈ v, x > -2147483648) :
    ∃ k : Nat, ivecMaxIdx v = k ∧ FirstMax some v k := by
  obtain ⟨x, hx, hx'⟩ := hv
  rcases argmaxLoop_spec (fun a b : Int => decide (a > b)) some (by intro a b; simp) v 0 (-1) (-2147483648) _ rfl with
    ⟨g1, _⟩ | ⟨k, x, kx, g1, g2, g3, g4, g5, g6⟩
  · have := g1 x hx x rfl; omega
  · refine ⟨k, ?_, x, kx, g2, g3, g5, g6⟩
    unfold ivecMaxIdx; rw [g1]; congr 1; omega

/-- C52 for floats: the index of the first maximum of the elements that are not NaN.
Missing: vectors without an element above `-FLT_MAX`, see `c52_all_minimal`. -/
theorem c52_svec_partial (v : List (BitVec 32)) (hv : ∃ x ∈ v, ∃ k, f32Key x = some k ∧ k > -2139095039) :
    ∃ k : Nat, svecMaxIdx v = k ∧ FirstMax f32Key v k := by
  obtain ⟨x, hx, kx, hx1, hx2⟩ := hv
  rcases argmaxLoop_spec f32Gt f32Key f32Gt_iff v 0 (-1) negFltMax (-2139095039) (by decide) with
    ⟨g1, _⟩ | ⟨k, x, kx, g1, g2, g3, g4, g5, g6⟩
  · have := g1 x hx kx hx1; omega
  · refine ⟨k, ?_, x, kx, g2, g3, g5, g6⟩
    unfold svecMaxIdx; rw [g1]; congr 1; omega

theorem maxValLoop_argmax : ∀ (v : List (BitVec 32)) (i : Nat) (m : Int) (b : BitVec 32),
    (argmaxLoop f32Gt i m b v = m ∧ maxValLoop b v = b) ∨
    ∃ (k : Nat), argmaxLoop f32Gt i m b v = ((i + k : Nat) : Int) ∧ v[k]? = some (maxValLoop b v) := by
  intro v
  induction v with
  | nil => intro i m b; left; exact ⟨rfl, rfl⟩
  | cons a v ih =>
    intro i m b
    unfold argmaxLoop maxValLoop
    by_cases hg : f32Gt a b = true
    · rw [if_pos hg, if_pos hg]
      right
      rcases ih (i + 1) i a with ⟨g1, g2⟩ | ⟨k, g1, g2⟩
      · exact ⟨0, by rw [g1]; simp, by rw [g2]; rfl⟩
      · exact ⟨k + 1, by rw [g1]; congr 1; omega, by simpa using g2⟩
    · rw [if_neg hg, if_neg hg]
      rcases ih (i + 1) m b with h | ⟨k, g1, g2⟩
      · exact Or.inl h
      · exact Or.inr ⟨k + 1, by rw [g1]; congr 1; omega, by simpa using g2⟩

/-- C52: `nx_svec_max_val` returns the element at the index `nx_svec_max_idx`
returns. -/
theorem c52_max_val_at_max_idx_partial (v : List (BitVec 32))
    (hv : ∃ x ∈ v, ∃ k, f32Key x = some k ∧ k > -2139095039) :
    ∃ k : Nat, svecMaxIdx v = k ∧ v[k]? = some (svecMaxVal v) := by
  obtain ⟨k, h1, h2⟩ := c52_svec_partial v hv
  rcases maxValLoop_argmax v 0 (-1) negFltMax with ⟨g1, _⟩ | ⟨k', g1, g2⟩
  · unfold svecMaxIdx at h1
    rw [h1] at g1
    omega
  · exact ⟨k', by unfold svecMaxIdx; rw [g1]; congr 1; omega, g2⟩

/-- The claim is false for non-empty vectors of the least value: the index is -1. -/
theorem c52_all_minimal : ivecMaxIdx [-2147483648] = -1 ∧ svecMaxIdx [negFltMax] = -1 := by
  decide

/-- 2.0, NaN, 3.0, 3.0. -/
example : svecMaxIdx [0x40000000#32, 0x7FC00000#32, 0x40400000#32, 0x40400000#32] = 2 := by decide
example : ivecMaxIdx [-5, 7, 7, 3] = 1 := by decide

end Nx
