import Verif.Lemmas.Homography
import Verif.Model.StereoRefine

/-! # Mean squared error of a homography and its derivative -/

namespace Nx

section
variable {K : Type} [Field K]

/-- The residual of a match: what the homography misses. -/
def Residual (h : M3 K) (c : PMatch K) (r : K × K) : Prop := ∃ q, Projects h.mat c.x q ∧ r = (c.xp.1 - q.1, c.xp.2 - q.2)

/-- `E` is the mean of the squared residuals of these matches, of which there is at least one. -/
def MeanError (h : M3 K) (ins : List (PMatch K)) (E : K) : Prop :=
  ins ≠ [] ∧ ∃ rs : List (K × K), List.Forall₂ (Residual h) ins rs ∧ E = (rs.map fun r => r.1 ^ 2 + r.2 ^ 2).sum / (ins.length : K)

/-- There is no such mean: no matches, or a match whose point is not taken to a point. -/
def NoMean (h : M3 K) (ins : List (PMatch K)) : Prop := ins = [] ∨ ∃ c ∈ ins, ∀ q, ¬ Projects h.mat c.x q

/-- The sum of two matrices. -/
def M3.plus (h d : M3 K) : M3 K :=
  ⟨h.e0 + d.e0, h.e1 + d.e1, h.e2 + d.e2, h.e3 + d.e3, h.e4 + d.e4, h.e5 + d.e5, h.e6 + d.e6, h.e7 + d.e7, h.e8 + d.e8⟩

/-- The nine numbers. -/
def M3.toList (d : M3 K) : List K := [d.e0, d.e1, d.e2, d.e3, d.e4, d.e5, d.e6, d.e7, d.e8]

/-- Product of a row with a column. -/
def listDot (a b : List K) : K := (List.zipWith (· * ·) a b).sum

/-- The third homogeneous coordinate of the image of a point. -/
def thirdOf (h : M3 K) (x : K × K) : K := h.e2 * x.1 + h.e5 * x.2 + h.e8

/-- `a` and `b` are the derivatives of the two coordinates of the image of `x` with respect to the elements of `h`: changing `h` by any `d`
moves the image by exactly the product with `d`, times a ratio that tends to one as `d` tends to zero. -/
def DerivativeRows (h : M3 K) (x : K × K) (a b : List K) : Prop :=
  a.length = 9 ∧ b.length = 9 ∧ ∀ (d : M3 K) (q q' : K × K), Projects h.mat x q → Projects (h.plus d).mat x q' →
    q'.1 - q.1 = thirdOf h x / thirdOf (h.plus d) x * listDot a d.toList ∧
    q'.2 - q.2 = thirdOf h x / thirdOf (h.plus d) x * listDot b d.toList

/-- `A` is the matrix of the damped normal equations of the `m` rows of nine numbers in `jt`: the products of the columns of the Jacobian,
those on the diagonal enlarged by a part `lambda`. -/
def NormalMatrix (n m : Nat) (jt : List K) (lambda : K) (A : List K) : Prop :=
  ∀ r c, r < n → c < n → A[c * n + r]? = some (((List.range m).map fun k =>
    ((jt[k * n + r]?).getD 0) * ((jt[k * n + c]?).getD 0)).sum * (if r = c then 1 + lambda else 1))

end

end Nx
