import Mathlib.Data.Matrix.Mul
import Mathlib.Data.Real.Basic
import Verif.Model.SvdWrap

/-!
# Specification of the singular value decomposition and of the library that computes it
-/

namespace Nx

/-- The matrix with the numbers `S` in the diagonal. -/
def diagMat (m n : Nat) (S : Nat → ℝ) : Matrix (Fin m) (Fin n) ℝ := Matrix.of fun i j => if i.val = j.val then S i.val else 0

/-- `U`, `S`, `Vt` are a singular value decomposition of `M`: two orthogonal matrices and numbers that decrease and are not negative. -/
def IsSvd {m n : Nat} (M : Matrix (Fin m) (Fin n) ℝ) (U : Matrix (Fin m) (Fin m) ℝ) (S : Nat → ℝ) (Vt : Matrix (Fin n) (Fin n) ℝ) :
    Prop :=
  U * U.transpose = 1 ∧ Vt * Vt.transpose = 1 ∧ (∀ k < min m n, 0 ≤ S k) ∧ (∀ k, k + 1 < min m n → S (k + 1) ≤ S k) ∧
    U * diagMat m n S * Vt = M

/-- The list has the matrix, by columns with `ld` elements from one to the next. -/
def StoredAt {m n : Nat} (l : List ℝ) (ld : Nat) (M : Matrix (Fin m) (Fin n) ℝ) : Prop :=
  ∀ (i : Fin m) (j : Fin n), l[i.val + ld * j.val]? = some (M i j)

/-- Nothing was written but a matrix of this size. -/
def KeptOutside (l l' : List ℝ) (ld rows cols : Nat) : Prop :=
  l'.length = l.length ∧ ∀ k, (∀ i < rows, ∀ j < cols, k ≠ i + ld * j) → l'[k]? = l[k]?

/-- What the documentation of LAPACK says of `?gesvd`, with exact arithmetic. -/
structure LapackOk (L : Lapack ℝ) : Prop where
  size : ∀ u v m n, 1 ≤ L.minWork u v m n ∧ L.minWork u v m n ≤ L.optWork u v m n
  svd : ∀ (u v : Char) (m n : Nat) (_ : 1 ≤ m) (_ : 1 ≤ n) (M : Matrix (Fin m) (Fin n) ℝ) (a : Nat → Nat → Option ℝ)
    (_ : ∀ (i : Fin m) (j : Fin n), a i.val j.val = some (M i j)) (_ : (L.run u v m n a).info = 0),
    ∃ U Vt, IsSvd M U (L.run u v m n a).S Vt ∧ (u = 'A' → ∀ i k : Fin m, (L.run u v m n a).U i.val k.val = U i k) ∧
      (v = 'A' → ∀ k j : Fin n, (L.run u v m n a).Vt k.val j.val = Vt k j)

end Nx
