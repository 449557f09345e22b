import Verif.Lemmas.SvdWrap
import Verif.Spec.Homography
import Verif.Spec.Epipolar
import Verif.Spec.Pinhole
import Mathlib.LinearAlgebra.Matrix.Charpoly.Basic
import Mathlib.Algebra.Polynomial.Roots
import Mathlib.Tactic.FinCases

/-! # C126: the singular value decomposition through LAPACK -/

namespace Nx

theorem matStore_at {l : List ℝ} {rows cols ld : Nat} {f : Nat → Nat → ℝ} {i j : Nat} (hi : i < rows) (hj : j < cols) (hld : rows ≤ ld)
    (hr : ld * (cols - 1) + rows ≤ l.length) :
    (l.mapIdx (fun k x => if k % ld < rows ∧ k / ld < cols then f (k % ld) (k / ld) else x))[i + ld * j]? = some (f i j) := by
  have h0 : 0 < ld := by omega
  have hlt : i + ld * j < l.length := by
    have : ld * j ≤ ld * (cols - 1) := Nat.mul_le_mul_left _ (by omega)
    omega
  have e1 : (i + ld * j) % ld = i := by rw [Nat.add_mul_mod_self_left, Nat.mod_eq_of_lt (by omega)]
  have e2 : (i + ld * j) / ld = j := by rw [Nat.add_mul_div_left _ _ h0, Nat.div_eq_of_lt (by omega), Nat.zero_add]
  rw [List.getElem?_mapIdx, List.getElem?_eq_getElem hlt, Option.map_some, e1, e2, if_pos ⟨hi, hj⟩]

theorem matStore_kept {l : List ℝ} {rows cols ld : Nat} {f : Nat → Nat → ℝ} :
    KeptOutside l (l.mapIdx (fun k x => if k % ld < rows ∧ k / ld < cols then f (k % ld) (k / ld) else x)) ld rows cols := by
  refine ⟨List.length_mapIdx, ?_⟩
  intro k hk
  have : ¬ (k % ld < rows ∧ k / ld < cols) := fun ⟨h1, h2⟩ => hk _ h1 _ h2 (by have := Nat.mod_add_div k ld; omega)
  rw [List.getElem?_mapIdx]
  simp only [if_neg this]
  cases l[k]? <;> rfl

theorem sKept {l : List ℝ} {d : Nat} {f : Nat → ℝ} :
    KeptOutside l (l.mapIdx (fun k x => if k % d < d ∧ k / d < 1 then f (k % d) else x)) d d 1 :=
  matStore_kept (f := fun i _ => f i)

/-- The call with arguments that fit. -/
theorem nxSvd_ok {L : Lapack ℝ} (hL : LapackOk L) {u v : Char} {m n : Nat} (hm : 1 ≤ m) (hn : 1 ≤ n)
    (hw : L.optWork u v m n ≤ 2147483647) {b : SvdBufs ℝ} {ldA ldU ldVt : Nat} (hA : m ≤ ldA) (hU : 1 ≤ ldU ∧ (u = 'A' → m ≤ ldU))
    (hV : 1 ≤ ldVt ∧ (v = 'A' → n ≤ ldVt)) (rA : matRoom b.A m n ldA = true) (rS : matRoom b.S (min m n) 1 (min m n) = true)
    (rU : u = 'A' → matRoom b.U m m ldU = true) (rV : v = 'A' → matRoom b.Vt n n ldVt = true) {σ : Mem} {own : List Nat}
    (ho : Owns σ own) :
    ∃ σ', nxSvd L u v m n b ldA ldU ldVt σ = .ok (⟨matStore b.A m n ldA (L.run u v m n (matAt b.A ldA)).A,
      matStore b.S (min m n) 1 (min m n) (fun i _ => (L.run u v m n (matAt b.A ldA)).S i),
      if u = 'A' then matStore b.U m m ldU (L.run u v m n (matAt b.A ldA)).U else b.U,
      if v = 'A' then matStore b.Vt n n ldVt (L.run u v m n (matAt b.A ldA)).Vt else b.Vt⟩, σ') ∧ Owns σ' own := by
  obtain ⟨s1, s2⟩ := hL.size u v m n
  have q : gesvdQuery L u v m n = .ok (L.optWork u v m n : Int) := by
    unfold gesvdQuery gesvdArgs
    simp only [Int.toNat_natCast]
    rw [if_neg (c := (m : Int) < 0) (by omega), if_neg (c := (n : Int) < 0) (by omega), if_neg (c := (m : Int) < max 1 (m : Int)) (by
      omega),
      if_neg (c := (m : Int) < 1 ∨ _) (by omega), if_neg (c := (n : Int) < 1 ∨ _) (by omega), if_neg (c := (-1 : Int) < _ ∧ _) (by omega),
      if_neg (by simp), if_pos ⟨by omega, by omega⟩]
  have ga : gesvdArgs L u v m n ldA ldU ldVt (L.optWork u v m n : Int) = 0 := by
    unfold gesvdArgs
    simp only [Int.toNat_natCast]
    rw [if_neg (by omega), if_neg (by omega), if_neg (by omega), if_neg, if_neg, if_neg (by omega)]
    · intro h
      rcases h with h | ⟨h, h'⟩
      · omega
      · have := hV.2 h; omega
    · intro h
      rcases h with h | ⟨h, h'⟩
      · omega
      · have := hU.2 h; omega
  obtain ⟨σ', e, o⟩ := free_owns (alloc_owns ho)
  refine ⟨σ', ?_, o⟩
  unfold nxSvd gesvdRun
  rw [q, Res.ok_bind, ga]
  simp only [Int.toNat_natCast, ne_eq, not_true_eq_false, if_false]
  rw [if_pos ⟨rA, rS, rU, rV, le_refl _⟩, Res.ok_bind, e, Res.ok_bind]
  rfl

section
variable {L : Lapack ℝ} (hL : LapackOk L) {m n : Nat} (hm : 1 ≤ m) (hn : 1 ≤ n) (M : Matrix (Fin m) (Fin n) ℝ)
  (A S U Vt : List ℝ) (ldA ldU ldVt : Nat) (hlA : m ≤ ldA) (hlU : m ≤ ldU) (hlV : n ≤ ldVt) (hM : StoredAt A ldA M)
  (hA : ldA * (n - 1) + m ≤ A.length) (hS : min m n ≤ S.length) (hU : ldU * (m - 1) + m ≤ U.length) (hV : ldVt * (n - 1) + n ≤ Vt.length)
  {σ : Mem} {own : List Nat} (ho : Owns σ own)

theorem matAt_stored {M : Matrix (Fin m) (Fin n) ℝ} {A : List ℝ} {ldA : Nat} (hM : StoredAt A ldA M) (i : Fin m) (j : Fin n) :
    matAt (some A) ldA i.val j.val = some (M i j) := by
  rw [matAt, Nat.add_comm]
  exact hM i j

theorem matRoom_some {l : List ℝ} {rows cols ld : Nat} (h : ld * (cols - 1) + rows ≤ l.length) : matRoom (some l) rows cols ld = true := by
  rw [matRoom]; simpa using h

include hL hm hn hlA hM hA hS ho

include hlU hlV hU hV in
/-- `nx_dsvd_usvt` with arrays that are large enough, when the iteration converges: the arrays are a decomposition of the matrix, other
elements of them stay, and the work array is freed. -/
theorem c126_usvt (hw : L.optWork 'A' 'A' m n ≤ 2147483647)
    (hc : (L.run 'A' 'A' m n (fun i j => A[ldA * j + i]?)).info = 0) :
    ∃ A' S' U' Vt' σ' Um s Vm, svdUsvt L U ldU S Vt ldVt m n A ldA σ = .ok (⟨some A', some S', some U', some Vt'⟩, σ') ∧ Owns σ' own ∧
      IsSvd M Um s Vm ∧ (∀ k < min m n, S'[k]? = some (s k)) ∧ StoredAt U' ldU Um ∧ StoredAt Vt' ldVt Vm ∧
      KeptOutside A A' ldA m n ∧ KeptOutside S S' (min m n) (min m n) 1 ∧ KeptOutside U U' ldU m m ∧ KeptOutside Vt Vt' ldVt n n := by
  obtain ⟨σ', e, o⟩ := nxSvd_ok hL hm hn hw (b := ⟨some A, some S, some U, some Vt⟩) hlA ⟨by omega, fun _ => hlU⟩ ⟨by omega, fun _ => hlV⟩
    (matRoom_some hA) (matRoom_some (by simpa using hS)) (fun _ => matRoom_some hU) (fun _ => matRoom_some hV) ho
  obtain ⟨Um, Vm, h1, h2, h3⟩ := hL.svd 'A' 'A' m n hm hn M _ (matAt_stored hM) hc
  refine ⟨_, _, _, _, σ', Um, _, Vm, e, o, h1, ?_, ?_, ?_, matStore_kept, sKept, matStore_kept, matStore_kept⟩
  · intro k hk
    simpa using matStore_at (f := fun i _ => (L.run 'A' 'A' m n (matAt (some A) ldA)).S i) hk (j := 0) (cols := 1) (by omega) (le_refl _)
      (by simpa using hS)
  · intro i j
    rw [matStore_at i.isLt j.isLt hlU hU]
    exact congrArg some (h2 rfl i j)
  · intro i j
    rw [matStore_at i.isLt j.isLt hlV hV]
    exact congrArg some (h3 rfl i j)

include hlU hU in
/-- `nx_dsvd_us`. -/
theorem c126_us (hw : L.optWork 'A' 'N' m n ≤ 2147483647)
    (hc : (L.run 'A' 'N' m n (fun i j => A[ldA * j + i]?)).info = 0) :
    ∃ A' S' U' σ' Um s Vm, svdUs L U ldU S m n A ldA σ = .ok (⟨some A', some S', some U', none⟩, σ') ∧ Owns σ' own ∧
      IsSvd M Um s Vm ∧ (∀ k < min m n, S'[k]? = some (s k)) ∧ StoredAt U' ldU Um ∧
      KeptOutside A A' ldA m n ∧ KeptOutside S S' (min m n) (min m n) 1 ∧ KeptOutside U U' ldU m m := by
  obtain ⟨σ', e, o⟩ := nxSvd_ok hL hm hn hw (b := ⟨some A, some S, some U, none⟩) (ldVt := n) hlA ⟨by omega, fun _ => hlU⟩
    ⟨by omega, fun _ => le_refl _⟩
    (matRoom_some hA) (matRoom_some (by simpa using hS)) (fun _ => matRoom_some hU) (fun h => absurd h (by decide)) ho
  obtain ⟨Um, Vm, h1, h2, -⟩ := hL.svd 'A' 'N' m n hm hn M _ (matAt_stored hM) hc
  refine ⟨_, _, _, σ', Um, _, Vm, e, o, h1, ?_, ?_, matStore_kept, sKept, matStore_kept⟩
  · intro k hk
    simpa using matStore_at (f := fun i _ => (L.run 'A' 'N' m n (matAt (some A) ldA)).S i) hk (j := 0) (cols := 1) (by omega) (le_refl _)
      (by simpa using hS)
  · intro i j
    rw [matStore_at i.isLt j.isLt hlU hU]
    exact congrArg some (h2 rfl i j)

include hlV hV in
/-- `nx_dsvd_svt`. -/
theorem c126_svt (hw : L.optWork 'N' 'A' m n ≤ 2147483647)
    (hc : (L.run 'N' 'A' m n (fun i j => A[ldA * j + i]?)).info = 0) :
    ∃ A' S' Vt' σ' Um s Vm, svdSvt L S Vt ldVt m n A ldA σ = .ok (⟨some A', some S', none, some Vt'⟩, σ') ∧ Owns σ' own ∧
      IsSvd M Um s Vm ∧ (∀ k < min m n, S'[k]? = some (s k)) ∧ StoredAt Vt' ldVt Vm ∧
      KeptOutside A A' ldA m n ∧ KeptOutside S S' (min m n) (min m n) 1 ∧ KeptOutside Vt Vt' ldVt n n := by
  obtain ⟨σ', e, o⟩ := nxSvd_ok hL hm hn hw (b := ⟨some A, some S, none, some Vt⟩) (ldU := m) hlA ⟨by omega, fun _ => le_refl _⟩
    ⟨by omega, fun _ => hlV⟩
    (matRoom_some hA) (matRoom_some (by simpa using hS)) (fun h => absurd h (by decide)) (fun _ => matRoom_some hV) ho
  obtain ⟨Um, Vm, h1, -, h3⟩ := hL.svd 'N' 'A' m n hm hn M _ (matAt_stored hM) hc
  refine ⟨_, _, _, σ', Um, _, Vm, e, o, h1, ?_, ?_, matStore_kept, sKept, matStore_kept⟩
  · intro k hk
    simpa using matStore_at (f := fun i _ => (L.run 'N' 'A' m n (matAt (some A) ldA)).S i) hk (j := 0) (cols := 1) (by omega) (le_refl _)
      (by simpa using hS)
  · intro i j
    rw [matStore_at i.isLt j.isLt hlV hV]
    exact congrArg some (h3 rfl i j)

/-- `nx_dsvd_only_s`. -/
theorem c126_only_s (hw : L.optWork 'N' 'N' m n ≤ 2147483647)
    (hc : (L.run 'N' 'N' m n (fun i j => A[ldA * j + i]?)).info = 0) :
    ∃ A' S' σ' Um s Vm, svdOnlyS L S m n A ldA σ = .ok (⟨some A', some S', none, none⟩, σ') ∧ Owns σ' own ∧
      IsSvd M Um s Vm ∧ (∀ k < min m n, S'[k]? = some (s k)) ∧
      KeptOutside A A' ldA m n ∧ KeptOutside S S' (min m n) (min m n) 1 := by
  obtain ⟨σ', e, o⟩ := nxSvd_ok hL hm hn hw (b := ⟨some A, some S, none, none⟩) (ldU := m) (ldVt := n) hlA ⟨by omega, fun _ => le_refl _⟩
    ⟨by omega, fun _ => le_refl _⟩
    (matRoom_some hA) (matRoom_some (by simpa using hS)) (fun h => absurd h (by decide)) (fun h => absurd h (by decide)) ho
  obtain ⟨Um, Vm, h1, -, -⟩ := hL.svd 'N' 'N' m n hm hn M _ (matAt_stored hM) hc
  refine ⟨_, _, σ', Um, _, Vm, e, o, h1, ?_, matStore_kept, sKept⟩
  intro k hk
  simpa using matStore_at (f := fun i _ => (L.run 'N' 'N' m n (matAt (some A) ldA)).S i) hk (j := 0) (cols := 1) (by omega) (le_refl _)
    (by simpa using hS)

end

theorem svd_squares {m n : Nat} {M : Matrix (Fin m) (Fin n) ℝ} {U : Matrix (Fin m) (Fin m) ℝ} {s : Nat → ℝ} {V : Matrix (Fin n) (Fin n) ℝ}
    (h : IsSvd M U s V) : (M * M.transpose).charpoly.roots =
      (List.ofFn (fun i : Fin m => if i.val < n then s i.val ^ 2 else 0) : Multiset ℝ) := by
  obtain ⟨hU, hV, -, -, rfl⟩ := h
  have hU' : U.transpose * U = 1 := mul_eq_one_comm.mp hU
  have hD : diagMat m n s * (diagMat m n s).transpose = Matrix.diagonal (fun i : Fin m => if i.val < n then s i.val ^ 2 else 0) := by
    ext i j
    rw [Matrix.mul_apply]
    by_cases hij : i = j
    · subst hij
      rw [Matrix.diagonal_apply_eq, ← diag_row_sq]
      exact Finset.sum_congr rfl (fun k _ => by rw [Matrix.transpose_apply, sq])
    · rw [Matrix.diagonal_apply_ne _ hij]
      apply Finset.sum_eq_zero
      intro k _
      rw [Matrix.transpose_apply]
      by_cases h1 : i.val = k.val
      · have : j.val ≠ k.val := fun e => hij (Fin.ext (h1.trans e.symm))
        simp [diagMat, this]
      · simp [diagMat, h1]
  have e : U * diagMat m n s * V * (U * diagMat m n s * V).transpose =
      U * (Matrix.diagonal (fun i : Fin m => if i.val < n then s i.val ^ 2 else 0) * U.transpose) := by
    rw [← hD, Matrix.transpose_mul, Matrix.transpose_mul]
    simp only [Matrix.mul_assoc]
    rw [← Matrix.mul_assoc V, hV, Matrix.one_mul]
  rw [e, Matrix.charpoly_mul_comm, Matrix.mul_assoc, hU', Matrix.mul_one, Matrix.charpoly_diagonal]
  have := Polynomial.roots_multiset_prod_X_sub_C (Finset.univ.val.map (fun i : Fin m => if i.val < n then s i.val ^ 2 else 0))
  rw [Multiset.map_map] at this
  rw [show (∏ i : Fin m, (Polynomial.X - Polynomial.C (if i.val < n then s i.val ^ 2 else 0))) =
    (Multiset.map ((fun a => Polynomial.X - Polynomial.C a) ∘ fun i : Fin m => if i.val < n then s i.val ^ 2 else 0)
      Finset.univ.val).prod from rfl,
    this, Fin.univ_val_map]

/-- The singular values are determined by the matrix: all four functions return the same. -/
theorem c126_values {m n : Nat} {M : Matrix (Fin m) (Fin n) ℝ} {U U' : Matrix (Fin m) (Fin m) ℝ} {s s' : Nat → ℝ}
    {V V' : Matrix (Fin n) (Fin n) ℝ} (h : IsSvd M U s V) (h' : IsSvd M U' s' V') (k : Nat) (hk : k < min m n) : s k = s' k := by
  have e := (svd_squares h).symm.trans (svd_squares h')
  rw [Multiset.coe_eq_coe] at e
  have srt : ∀ {U : Matrix (Fin m) (Fin m) ℝ} {s : Nat → ℝ} {V : Matrix (Fin n) (Fin n) ℝ}, IsSvd M U s V →
      (List.ofFn (fun i : Fin m => if i.val < n then s i.val ^ 2 else 0)).Pairwise (fun a b => b ≤ a) := by
    intro U s V h
    rw [List.pairwise_ofFn]
    intro i j hij
    have hij : i.val < j.val := hij
    by_cases hj : j.val < n
    · rw [if_pos hj, if_pos (by omega)]
      exact pow_le_pow_left₀ (h.2.2.1 _ (by omega)) (svd_antitone h.2.2.2.1 (by omega) (by omega)) 2
    · rw [if_neg hj]
      split
      · exact sq_nonneg _
      · exact le_refl _
  have e' := e.eq_of_pairwise (fun a b _ _ h1 h2 => le_antisymm h2 h1) (srt h) (srt h')
  have := congrArg (fun l => l[k]?) e'
  have hk' : k < m := by omega
  simp only [List.getElem?_ofFn, dif_pos hk', Option.some.injEq] at this
  rw [if_pos (by omega), if_pos (by omega)] at this
  exact (pow_left_inj₀ (h.2.2.1 k hk) (h'.2.2.1 k hk) two_ne_zero).mp this

/-- A matrix without rows or columns ends the program. -/
theorem c126_fatal {K : Type} (L : Lapack K) (u v : Char) (m n : Int) (h : m < 1 ∨ n < 1) (b : SvdBufs K) (ldA ldU ldVt : Int) (σ : Mem) :
    nxSvd L u v m n b ldA ldU ldVt σ = .fatal := by
  have q : gesvdQuery L u v m n = .fatal := by
    unfold gesvdQuery
    rw [if_pos]
    unfold gesvdArgs
    split
    · decide
    split
    · decide
    split
    · decide
    split
    · decide
    split
    · decide
    · omega
  unfold nxSvd
  rw [q]
  rfl

/-- A call that LAPACK rejects, as the distance of the columns is smaller than a column, returns like any other; nothing is written. -/
theorem c126_unreported {K : Type} (L : Lapack K) (hs : ∀ u v m n, L.optWork u v m n ≤ 2147483647) (m n : Nat) (hm : 1 ≤ m) (hn : 1 ≤ n)
    (u v : Char) (b : SvdBufs K) (ldA ldU ldVt : Int) (hld : ldA < m) {σ : Mem} {own : List Nat} (ho : Owns σ own) :
    ∃ σ', nxSvd L u v m n b ldA ldU ldVt σ = .ok (b, σ') ∧ Owns σ' own := by
  have q : gesvdQuery L u v m n = .ok (L.optWork u v m n : Int) := by
    unfold gesvdQuery gesvdArgs
    have := hs u v m n
    simp only [Int.toNat_natCast]
    rw [if_neg (c := (m : Int) < 0) (by omega), if_neg (c := (n : Int) < 0) (by omega), if_neg (c := (m : Int) < max 1 (m : Int)) (by
      omega),
      if_neg (c := (m : Int) < 1 ∨ _) (by omega), if_neg (c := (n : Int) < 1 ∨ _) (by omega), if_neg (c := (-1 : Int) < _ ∧ _) (by omega),
      if_neg (by simp), if_pos ⟨by omega, by omega⟩]
  have ga : gesvdArgs L u v m n ldA ldU ldVt (L.optWork u v m n : Int) = -6 := by
    unfold gesvdArgs
    rw [if_neg (by omega), if_neg (by omega), if_pos (by omega)]
  obtain ⟨σ', e, o⟩ := free_owns (alloc_owns ho)
  refine ⟨σ', ?_, o⟩
  unfold nxSvd gesvdRun
  rw [q, Res.ok_bind, ga, if_pos (by decide), Res.ok_bind, e, Res.ok_bind]
  rfl

/-- Columns one after the other. -/
theorem flat_at {p : Nat} : ∀ (cols : List (Fin p → ℝ)) (i : Fin p) (j : Nat) (hj : j < cols.length),
    (cols.flatMap List.ofFn)[i.val + p * j]? = some (cols[j] i)
  | c :: cols, i, 0, _ => by
    rw [List.flatMap_cons, List.getElem?_append_left (by simp)]
    simp
  | c :: cols, i, j + 1, hj => by
    have h := flat_at cols i j (by simpa using hj)
    rw [List.flatMap_cons, List.getElem?_append_right (by rw [List.length_ofFn, Nat.mul_succ]; omega), List.length_ofFn,
      show i.val + p * (j + 1) - p = i.val + p * j by rw [Nat.mul_succ]; omega, h]
    rfl

/-- The matrix with these columns. -/
def colMat {p : Nat} (cols : List (Fin p → ℝ)) : Matrix (Fin p) (Fin cols.length) ℝ := Matrix.of fun i j => cols[j.val] i

theorem flat_stored {p : Nat} (cols : List (Fin p → ℝ)) : StoredAt (cols.flatMap List.ofFn) p (colMat cols) := by
  intro i j
  exact flat_at cols i j.val j.isLt

theorem flat_length {p : Nat} (cols : List (Fin p → ℝ)) : (cols.flatMap List.ofFn).length = p * cols.length := by
  induction cols with
  | nil => simp
  | cons c cols ih => rw [List.flatMap_cons, List.length_append, ih, List.length_ofFn, List.length_cons, Nat.mul_succ]; omega

theorem sum_cols {p : Nat} (cols : List (Fin p → ℝ)) (f : (Fin p → ℝ) → ℝ) :
    (cols.map f).sum = ∑ j : Fin cols.length, f (fun i => colMat cols i j) := by
  have e : cols.map f = List.ofFn (fun j : Fin cols.length => f (fun i => colMat cols i j)) := by
    apply List.ext_getElem
    · simp
    · intro k h1 h2
      simp [colMat]
  rw [e, List.sum_ofFn]

/-- The left vectors and the values that the library returns for a matrix given by its columns. -/
noncomputable def colSvd (L : Lapack ℝ) {p : Nat} (cols : List (Fin p → ℝ)) : (Fin p → Fin p → ℝ) × List ℝ :=
  if cols = [] then (fun k i => if k = i then 1 else 0, [])
  else
    let r := L.run 'A' 'N' p cols.length (fun i j => (cols.flatMap List.ofFn)[p * j + i]?)
    (fun k i => r.U i.val k.val, (List.range (min p cols.length)).map r.S)

theorem colSvd_ok {L : Lapack ℝ} (hL : LapackOk L) {p : Nat} (hc : ∀ n a, (L.run 'A' 'N' (p + 1) n a).info = 0)
    (cols : List (Fin (p + 1) → ℝ)) :
    (colSvd L cols).2.length = min (p + 1) cols.length ∧ ∑ k, (colSvd L cols).1 (Fin.last p) k ^ 2 = 1 ∧
      ∀ v : Fin (p + 1) → ℝ, ∑ k, v k ^ 2 = 1 →
        (cols.map fun c => (∑ k, c k * (colSvd L cols).1 (Fin.last p) k) ^ 2).sum ≤ (cols.map fun c => (∑ k, c k * v k) ^ 2).sum := by
  by_cases h0 : cols = []
  · subst h0
    refine ⟨by simp [colSvd], ?_, by simp⟩
    simp [colSvd]
  · have hl : 1 ≤ cols.length := List.length_pos_iff.mpr h0
    obtain ⟨U, Vt, h1, h2, -⟩ := hL.svd 'A' 'N' (p + 1) cols.length (by omega) hl (colMat cols)
      (fun i j => (cols.flatMap List.ofFn)[(p + 1) * j + i]?) (by
        intro i j
        have := flat_stored cols i j
        rw [Nat.add_comm i.val] at this
        exact this) (hc _ _)
    have e : ∀ i, (colSvd L cols).1 (Fin.last p) i = U i (Fin.last p) := by
      intro i
      rw [colSvd, if_neg h0]
      exact h2 rfl i (Fin.last p)
    obtain ⟨s1, -, s3⟩ := svd_last h1
    refine ⟨?_, ?_, ?_⟩
    · rw [colSvd, if_neg h0]
      simp
    · simp only [e]
      exact s1
    · intro v hv
      simp only [e]
      rw [sum_cols cols, sum_cols cols]
      exact s3 v hv

/-- What a call with the columns in one array leaves in the arrays. -/
theorem colSvd_call {L : Lapack ℝ} (hL : LapackOk L) {p : Nat} (hp : 1 ≤ p)
    (cols : List (Fin p → ℝ)) (h0 : cols ≠ []) (hw : L.optWork 'A' 'N' p cols.length ≤ 2147483647) (U S : List ℝ)
    (hU : U.length = p * p) (hS : S.length = p) {σ : Mem} {own : List Nat} (ho : Owns σ own) :
    ∃ A' S' U' σ', svdUs L U p S p cols.length (cols.flatMap List.ofFn) p σ = .ok (⟨some A', some S', some U', none⟩, σ') ∧ Owns σ' own ∧
      U'.length = p * p ∧ (∀ k i : Fin p, U'[i.val + p * k.val]? = some ((colSvd L cols).1 k i)) ∧
      (∀ k, k < (colSvd L cols).2.length → S'[k]? = (colSvd L cols).2[k]?) ∧ ∀ k, (colSvd L cols).2.length ≤ k → S'[k]? = S[k]? := by
  have hl : 1 ≤ cols.length := List.length_pos_iff.mpr h0
  have hsq : ∀ q, 1 ≤ q → p * (q - 1) + p = p * q := by
    intro q hq
    obtain ⟨q, rfl⟩ : ∃ q', q = q' + 1 := ⟨q - 1, by omega⟩
    rw [Nat.add_sub_cancel, Nat.mul_succ]
  have hrU : p * (p - 1) + p ≤ U.length := by rw [hsq p hp, hU]
  have hrS : min p cols.length * (1 - 1) + min p cols.length ≤ S.length := by rw [hS]; simp
  obtain ⟨σ', e, o⟩ := nxSvd_ok hL hp hl hw (b := ⟨some (cols.flatMap List.ofFn), some S, some U, none⟩) (ldA := p) (ldU := p)
    (ldVt := cols.length) (le_refl _) ⟨hp, fun _ => le_refl _⟩
    ⟨hl, fun _ => le_refl _⟩ (matRoom_some (by rw [flat_length, hsq _ hl])) (matRoom_some hrS) (fun _ => matRoom_some hrU)
    (fun h => absurd h (by decide)) ho
  refine ⟨_, _, _, σ', e, o, by rw [List.length_mapIdx, hU], ?_, ?_, ?_⟩
  · intro k i
    rw [matStore_at i.isLt k.isLt (le_refl _) hrU, colSvd, if_neg h0]
    rfl
  · intro k hk
    rw [colSvd, if_neg h0] at hk ⊢
    simp only [List.length_map, List.length_range] at hk
    rw [List.getElem?_map, List.getElem?_range hk]
    have := matStore_at (f := fun i _ => (L.run 'A' 'N' p cols.length (matAt (some (cols.flatMap List.ofFn)) p)).S i) hk (j := 0)
      (cols := 1) (by omega) (le_refl _) hrS
    rw [Nat.mul_zero, Nat.add_zero] at this
    exact this
  · intro k hk
    rw [colSvd, if_neg h0] at hk
    simp only [List.length_map, List.length_range] at hk
    refine (sKept (f := (L.run 'A' 'N' p cols.length (matAt (some (cols.flatMap List.ofFn)) p)).S)).2 k ?_
    intro i hi j hj e
    obtain rfl : j = 0 := by omega
    omega

/-- What the estimation of homographies and fundamental matrices assumes of the decomposition (C62, C66, C71, C72, C97) is what they get
from the calls with nine rows, if the iteration of LAPACK converges: `U` has the vectors and of `S` as many are written as there are
values. -/
theorem c126_nine {L : Lapack ℝ} (hL : LapackOk L) (hc : ∀ n a, (L.run 'A' 'N' 9 n a).info = 0) :
    ∃ svd, SvdContract svd ∧ ∀ cols, cols ≠ [] → L.optWork 'A' 'N' 9 cols.length ≤ 2147483647 → ∀ (U S : List ℝ), U.length = 81 →
      S.length = 9 → ∀ (σ : Mem) (own : List Nat), Owns σ own →
      ∃ A' S' U' σ', svdNine L U S cols.length (cols.flatMap List.ofFn) σ = .ok (⟨some A', some S', some U', none⟩, σ') ∧ Owns σ' own ∧
        (∀ k i : Fin 9, U'[i.val + 9 * k.val]? = some ((svd cols).1 k i)) ∧
        (∀ k, k < (svd cols).2.length → S'[k]? = (svd cols).2[k]?) ∧ ∀ k, (svd cols).2.length ≤ k → S'[k]? = S[k]? := by
  refine ⟨colSvd L, colSvd_ok hL hc, ?_⟩
  intro cols h0 hw U S hU hS σ own ho
  obtain ⟨A', S', U', σ', e, o, -, h1, h2, h3⟩ := colSvd_call hL (p := 9) (by omega) cols h0 hw U S hU hS ho
  exact ⟨A', S', U', σ', e, o, h1, h2, h3⟩

/-- The same for the triangulation with four rows (C73). -/
theorem c126_four {L : Lapack ℝ} (hL : LapackOk L) (hc : ∀ n a, (L.run 'A' 'N' 4 n a).info = 0)
    (hw : L.optWork 'A' 'N' 4 4 ≤ 2147483647) :
    ∃ svd4, Svd4Contract svd4 ∧ ∀ cols, cols.length = 4 → ∀ (U S : List ℝ), U.length = 16 →
      S.length = 4 → ∀ (σ : Mem) (own : List Nat), Owns σ own →
      ∃ A' S' U' σ', svdFour L U S (cols.flatMap List.ofFn) σ = .ok (⟨some A', some S', some U', none⟩, σ') ∧ Owns σ' own ∧
        ∀ k i : Fin 4, U'[i.val + 4 * k.val]? = some (svd4 cols k i) := by
  refine ⟨fun cols => (colSvd L cols).1, fun cols => (colSvd_ok hL hc cols).2, ?_⟩
  intro cols h4 U S hU hS σ own ho
  obtain ⟨A', S', U', σ', e, o, -, h1, -, -⟩ := colSvd_call hL (p := 4) (by omega) cols (by intro h; rw [h] at h4; cases h4)
    (by rw [h4]; exact hw) U S hU hS ho
  rw [h4] at e
  exact ⟨A', S', U', σ', e, o, h1⟩

/-- The array for a 3×3 matrix. -/
def listM3 (A : M3 ℝ) : List ℝ := [A.e0, A.e1, A.e2, A.e3, A.e4, A.e5, A.e6, A.e7, A.e8]

theorem listM3_stored (A : M3 ℝ) : StoredAt (listM3 A) 3 A.mat := by
  intro i j
  fin_cases i <;> fin_cases j <;> rfl

/-- The same for the decomposition of 3×3 matrices (C66, C67, C68, C72). -/
theorem c126_three {L : Lapack ℝ} (hL : LapackOk L) (hc : ∀ a, (L.run 'A' 'A' 3 3 a).info = 0)
    (hw : L.optWork 'A' 'A' 3 3 ≤ 2147483647) :
    ∃ svd3, Svd3Contract svd3 ∧ ∀ (A : M3 ℝ) (U S Vt : List ℝ), U.length = 9 → S.length = 3 → Vt.length = 9 →
      ∀ (σ : Mem) (own : List Nat), Owns σ own →
      ∃ A' σ', svdThree L U S Vt (listM3 A) σ = .ok (⟨some A', some [(svd3 A).2.1.e0, (svd3 A).2.1.e1, (svd3 A).2.1.e2],
        some (listM3 (svd3 A).1), some (listM3 (svd3 A).2.2)⟩, σ') ∧ Owns σ' own := by
  have key : ∀ A : M3 ℝ, ∃ r : M3 ℝ × V3 ℝ × M3 ℝ, IsSvd3 A.mat r.1.mat r.2.2.mat r.2.1.vec ∧
      ∀ (U S Vt : List ℝ), U.length = 9 → S.length = 3 → Vt.length = 9 → ∀ (σ : Mem) (own : List Nat), Owns σ own →
      ∃ A' σ', svdThree L U S Vt (listM3 A) σ = .ok (⟨some A', some [r.2.1.e0, r.2.1.e1, r.2.1.e2],
        some (listM3 r.1), some (listM3 r.2.2)⟩, σ') ∧ Owns σ' own := by
    intro A
    let g := L.run 'A' 'A' 3 3 (matAt (some (listM3 A)) 3)
    obtain ⟨Um, Vm, h1, h2, h3⟩ := hL.svd 'A' 'A' 3 3 (by omega) (by omega) A.mat _ (matAt_stored (listM3_stored A)) (hc _)
    have eU : (⟨g.U 0 0, g.U 1 0, g.U 2 0, g.U 0 1, g.U 1 1, g.U 2 1, g.U 0 2, g.U 1 2, g.U 2 2⟩ : M3 ℝ).mat = Um := by
      ext i j
      rw [← h2 rfl i j]
      fin_cases i <;> fin_cases j <;> rfl
    have eV : (⟨g.Vt 0 0, g.Vt 1 0, g.Vt 2 0, g.Vt 0 1, g.Vt 1 1, g.Vt 2 1, g.Vt 0 2, g.Vt 1 2, g.Vt 2 2⟩ : M3 ℝ).mat = Vm := by
      ext i j
      rw [← h3 rfl i j]
      fin_cases i <;> fin_cases j <;> rfl
    refine ⟨(⟨g.U 0 0, g.U 1 0, g.U 2 0, g.U 0 1, g.U 1 1, g.U 2 1, g.U 0 2, g.U 1 2, g.U 2 2⟩, ⟨g.S 0, g.S 1, g.S 2⟩,
      ⟨g.Vt 0 0, g.Vt 1 0, g.Vt 2 0, g.Vt 0 1, g.Vt 1 1, g.Vt 2 1, g.Vt 0 2, g.Vt 1 2, g.Vt 2 2⟩), ?_, ?_⟩
    · rw [eU, eV]
      obtain ⟨i1, i2, i3, i4, i5⟩ := h1
      refine ⟨i1, i2, i3 2 (by decide), i4 1 (by decide), i4 0 (by decide), ?_⟩
      rw [← i5]
      congr 2
      ext i j
      fin_cases i <;> fin_cases j <;> rfl
    · intro U S Vt hU hS hV σ own ho
      obtain ⟨σ', e, o⟩ := nxSvd_ok hL (m := 3) (n := 3) (by omega) (by omega) hw (b := ⟨some (listM3 A), some S, some U, some Vt⟩)
        (ldA := 3) (ldU := 3) (ldVt := 3) (le_refl _) ⟨by omega, fun _ => le_refl _⟩ ⟨by omega, fun _ => le_refl _⟩
        (matRoom_some (le_refl 9)) (matRoom_some (by rw [hS]; decide)) (fun _ => matRoom_some (by rw [hU]))
        (fun _ => matRoom_some (by rw [hV])) ho
      have len9 : ∀ (X : List ℝ) (f : Nat → Nat → ℝ), X.length = 9 → matStore (some X) 3 3 3 f =
          some [f 0 0, f 1 0, f 2 0, f 0 1, f 1 1, f 2 1, f 0 2, f 1 2, f 2 2] := by
        intro X f hX
        match X, hX with
        | [_, _, _, _, _, _, _, _, _], _ => simp [matStore]
      have len3 : ∀ (X : List ℝ) (f : Nat → ℝ), X.length = 3 → matStore (some X) (min 3 3) 1 (min 3 3) (fun i _ => f i) =
          some [f 0, f 1, f 2] := by
        intro X f hX
        match X, hX with
        | [_, _, _], _ => simp [matStore]
      simp only [if_true] at e
      rw [len9 U _ hU, len9 Vt _ hV, len3 S _ hS, len9 (listM3 A) _ rfl] at e
      exact ⟨_, σ', e, o⟩
  choose svd3 hs hr using key
  exact ⟨svd3, hs, hr⟩

/-- There is such a library. -/
example : ∃ L : Lapack ℝ, LapackOk L ∧ (∀ u v m n, L.optWork u v m n ≤ 2147483647) ∧ ∀ u v m n a, (L.run u v m n a).info = 0 := by
  have key : ∀ (m n : Nat) (a : Nat → Nat → Option ℝ), ∃ g : GesvdOut ℝ, g.info = 0 ∧ ∀ M : Matrix (Fin m) (Fin n) ℝ,
      (∀ (i : Fin m) (j : Fin n), a i.val j.val = some (M i j)) →
      ∃ U Vt, IsSvd M U g.S Vt ∧ (∀ i k : Fin m, g.U i.val k.val = U i k) ∧ (∀ k j : Fin n, g.Vt k.val j.val = Vt k j) := by
    intro m n a
    by_cases h : ∃ M : Matrix (Fin m) (Fin n) ℝ, ∀ (i : Fin m) (j : Fin n), a i.val j.val = some (M i j)
    · obtain ⟨M, hM⟩ := h
      obtain ⟨U, S, Vt, hs⟩ := exists_svd M
      refine ⟨⟨0, fun _ _ => 0, S, fun i k => if h : i < m ∧ k < m then U ⟨i, h.1⟩ ⟨k, h.2⟩ else 0,
        fun k j => if h : k < n ∧ j < n then Vt ⟨k, h.1⟩ ⟨j, h.2⟩ else 0⟩, rfl, ?_⟩
      intro M' hM'
      have : M' = M := by
        ext i j
        have := (hM i j).symm.trans (hM' i j)
        exact (Option.some.inj this).symm
      subst this
      exact ⟨U, Vt, hs, fun i k => dif_pos ⟨i.isLt, k.isLt⟩, fun k j => dif_pos ⟨k.isLt, j.isLt⟩⟩
    · exact ⟨⟨0, fun _ _ => 0, fun _ => 0, fun _ _ => 0, fun _ _ => 0⟩, rfl, fun M hM => absurd ⟨M, hM⟩ h⟩
  choose g hg0 hg using key
  refine ⟨⟨fun _ _ _ _ => 1, fun _ _ _ _ => 1, fun _ _ m n a => g m n a⟩, ⟨fun _ _ _ _ => ⟨le_refl _, le_refl _⟩, ?_⟩,
    fun _ _ _ _ => Nat.le_of_ble_eq_true rfl, fun _ _ m n a => hg0 m n a⟩
  intro u v m n _ _ M a ha _
  obtain ⟨U, Vt, h1, h2, h3⟩ := hg m n a M ha
  exact ⟨U, Vt, h1, fun _ => h2, fun _ => h3⟩

end Nx
