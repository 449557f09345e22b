import Mathlib.Algebra.Field.Defs
import Verif.Model.Sample

/-!
# Model of the small matrices, `include/virg/nexus/nx_mat234.h`, `nx_vec234.h`, `nx_mat.h`

The numbers are the elements of an arbitrary field `K`: rounding, overflow to infinity
and NaN of `float`/`double` are not modelled. Where the C code divides by zero, which in
IEEE arithmetic yields an infinity or a NaN, the field's convention `a / 0 = 0` would be
wrong; all theorems about such code assume the divisor to be nonzero. The `float` and
`double` variants of a function are the same definition. Fixed size arrays are
structures whose field `eᵢ` is the array element with index `i`; the result arrays do
not overlap the arguments (except where a function works in place).
-/

namespace Nx

/-- An array of three numbers. -/
structure V3 (K : Type) where
  e0 : K
  e1 : K
  e2 : K
deriving DecidableEq, Repr

/-- An array of nine numbers. -/
structure M3 (K : Type) where
  e0 : K
  e1 : K
  e2 : K
  e3 : K
  e4 : K
  e5 : K
  e6 : K
  e7 : K
  e8 : K
deriving DecidableEq, Repr

/-- An array of twelve numbers (3×4 matrices). -/
structure M34 (K : Type) where
  e0 : K
  e1 : K
  e2 : K
  e3 : K
  e4 : K
  e5 : K
  e6 : K
  e7 : K
  e8 : K
  e9 : K
  e10 : K
  e11 : K
deriving DecidableEq, Repr

/-- An array of sixteen numbers. -/
structure M4 (K : Type) where
  e0 : K
  e1 : K
  e2 : K
  e3 : K
  e4 : K
  e5 : K
  e6 : K
  e7 : K
  e8 : K
  e9 : K
  e10 : K
  e11 : K
  e12 : K
  e13 : K
  e14 : K
  e15 : K
deriving DecidableEq, Repr

variable {K : Type} [Field K]

/-- `nx_smat3_set_zero`, `nx_dmat3_set_zero`, `include/virg/nexus/nx_mat234.h:95-98` and `:257-260`. -/
def dmat3SetZero : M3 K := ⟨0, 0, 0, 0, 0, 0, 0, 0, 0⟩

/-- `nx_dmat3_eye`, `include/virg/nexus/nx_mat234.h:262-268`. -/
def dmat3Eye : M3 K := { (dmat3SetZero : M3 K) with e0 := 1, e4 := 1, e8 := 1 }

/-- `nx_smat3_inv`, `nx_dmat3_inv`, `include/virg/nexus/nx_mat234.h:100-128` and `:197-225`: the inverse and
the returned value. -/
def dmat3Inv [DecidableEq K] (M : M3 K) : M3 K × K :=
  let t4 := M.e0 * M.e4
  let t6 := M.e0 * M.e7
  let t8 := M.e3 * M.e1
  let t10 := M.e6 * M.e1
  let t12 := M.e3 * M.e2
  let t14 := M.e6 * M.e2
  let detM3 := t4 * M.e8 - t6 * M.e5 - t8 * M.e8 + t10 * M.e5 + t12 * M.e7 - t14 * M.e4
  if detM3 ≠ 0 then
    let t17 := 1 / detM3
    ({ e0 := (M.e4 * M.e8 - M.e7 * M.e5) * t17
       e1 := -(M.e1 * M.e8 - M.e7 * M.e2) * t17
       e2 := (M.e1 * M.e5 - M.e4 * M.e2) * t17
       e3 := -(M.e3 * M.e8 - M.e6 * M.e5) * t17
       e4 := (M.e0 * M.e8 - t14) * t17
       e5 := -(M.e0 * M.e5 - t12) * t17
       e6 := (M.e3 * M.e7 - M.e6 * M.e4) * t17
       e7 := -(t6 - t10) * t17
       e8 := (t4 - t8) * t17 }, detM3)
  else (dmat3SetZero, detM3)

/-- `nx_smat3_mul`, `nx_dmat3_mul`, `include/virg/nexus/nx_mat234.h:148-161` and `:227-240`. -/
def dmat3Mul (A B : M3 K) : M3 K where
  e0 := A.e0 * B.e0 + A.e3 * B.e1 + A.e6 * B.e2
  e1 := A.e1 * B.e0 + A.e4 * B.e1 + A.e7 * B.e2
  e2 := A.e2 * B.e0 + A.e5 * B.e1 + A.e8 * B.e2
  e3 := A.e0 * B.e3 + A.e3 * B.e4 + A.e6 * B.e5
  e4 := A.e1 * B.e3 + A.e4 * B.e4 + A.e7 * B.e5
  e5 := A.e2 * B.e3 + A.e5 * B.e4 + A.e8 * B.e5
  e6 := A.e0 * B.e6 + A.e3 * B.e7 + A.e6 * B.e8
  e7 := A.e1 * B.e6 + A.e4 * B.e7 + A.e7 * B.e8
  e8 := A.e2 * B.e6 + A.e5 * B.e7 + A.e8 * B.e8

/-- `nx_dmat3_mul_ua`, `include/virg/nexus/nx_mat234.h:242-255`. -/
def dmat3MulUa (U A : M3 K) : M3 K where
  e0 := U.e0 * A.e0 + U.e3 * A.e1 + U.e6 * A.e2
  e1 := U.e4 * A.e1 + U.e7 * A.e2
  e2 := U.e8 * A.e2
  e3 := U.e0 * A.e3 + U.e3 * A.e4 + U.e6 * A.e5
  e4 := U.e4 * A.e4 + U.e7 * A.e5
  e5 := U.e8 * A.e5
  e6 := U.e0 * A.e6 + U.e3 * A.e7 + U.e6 * A.e8
  e7 := U.e4 * A.e7 + U.e7 * A.e8
  e8 := U.e8 * A.e8

/-- `nx_dmat3_det`, `include/virg/nexus/nx_mat234.h:270-275`. -/
def dmat3Det (A : M3 K) : K :=
  A.e0 * (A.e4 * A.e8 - A.e5 * A.e7) - A.e3 * (A.e1 * A.e8 - A.e2 * A.e7) + A.e6 * (A.e1 * A.e5 - A.e2 * A.e4)

/-- `nx_dmat3_xptFx`, `include/virg/nexus/nx_mat234.h:277-287`; the points are arrays of two numbers. -/
def dmat3XptFx (F : M3 K) (x xp : K × K) : K :=
  0 + xp.1 * (x.1 * F.e0 + x.2 * F.e3 + F.e6) + xp.2 * (x.1 * F.e1 + x.2 * F.e4 + F.e7)
    + 1 * (x.1 * F.e2 + x.2 * F.e5 + F.e8)

/-- `nx_dmat3_sub`, `include/virg/nexus/nx_mat234.h:320-324`: `A` afterwards. -/
def dmat3Sub (A B : M3 K) : M3 K :=
  ⟨A.e0 - B.e0, A.e1 - B.e1, A.e2 - B.e2, A.e3 - B.e3, A.e4 - B.e4, A.e5 - B.e5, A.e6 - B.e6, A.e7 - B.e7, A.e8 - B.e8⟩

/-- The argument of `sqrt` in `nx_dmat3_frob_norm`, `include/virg/nexus/nx_mat234.h:312-318`. -/
def dmat3FrobSq (A : M3 K) : K :=
  [A.e0, A.e1, A.e2, A.e3, A.e4, A.e5, A.e6, A.e7, A.e8].foldl (fun s a => s + a * a) 0

/-- `nx_dmat3_transform`, `include/virg/nexus/nx_mat234.h:326-334`: `v` afterwards. -/
def dmat3Transform (A : M3 K) (v : V3 K) : V3 K where
  e0 := A.e0 * v.e0 + A.e3 * v.e1 + A.e6 * v.e2
  e1 := A.e1 * v.e0 + A.e4 * v.e1 + A.e7 * v.e2
  e2 := A.e2 * v.e0 + A.e5 * v.e1 + A.e8 * v.e2

/-- `nx_smat4_mul`, `nx_dmat4_mul`, `include/virg/nexus/nx_mat234.h:163-184` and `:346-367`. -/
def dmat4Mul (A B : M4 K) : M4 K where
  e0 := A.e0 * B.e0 + A.e4 * B.e1 + A.e8 * B.e2 + A.e12 * B.e3
  e1 := A.e1 * B.e0 + A.e5 * B.e1 + A.e9 * B.e2 + A.e13 * B.e3
  e2 := A.e2 * B.e0 + A.e6 * B.e1 + A.e10 * B.e2 + A.e14 * B.e3
  e3 := A.e3 * B.e0 + A.e7 * B.e1 + A.e11 * B.e2 + A.e15 * B.e3
  e4 := A.e0 * B.e4 + A.e4 * B.e5 + A.e8 * B.e6 + A.e12 * B.e7
  e5 := A.e1 * B.e4 + A.e5 * B.e5 + A.e9 * B.e6 + A.e13 * B.e7
  e6 := A.e2 * B.e4 + A.e6 * B.e5 + A.e10 * B.e6 + A.e14 * B.e7
  e7 := A.e3 * B.e4 + A.e7 * B.e5 + A.e11 * B.e6 + A.e15 * B.e7
  e8 := A.e0 * B.e8 + A.e4 * B.e9 + A.e8 * B.e10 + A.e12 * B.e11
  e9 := A.e1 * B.e8 + A.e5 * B.e9 + A.e9 * B.e10 + A.e13 * B.e11
  e10 := A.e2 * B.e8 + A.e6 * B.e9 + A.e10 * B.e10 + A.e14 * B.e11
  e11 := A.e3 * B.e8 + A.e7 * B.e9 + A.e11 * B.e10 + A.e15 * B.e11
  e12 := A.e0 * B.e12 + A.e4 * B.e13 + A.e8 * B.e14 + A.e12 * B.e15
  e13 := A.e1 * B.e12 + A.e5 * B.e13 + A.e9 * B.e14 + A.e13 * B.e15
  e14 := A.e2 * B.e12 + A.e6 * B.e13 + A.e10 * B.e14 + A.e14 * B.e15
  e15 := A.e3 * B.e12 + A.e7 * B.e13 + A.e11 * B.e14 + A.e15 * B.e15

/-- `nx_dmat4_eye`, `include/virg/nexus/nx_mat234.h:369-376`. -/
def dmat4Eye : M4 K := ⟨1, 0, 0, 0, 0, 1, 0, 0, 0, 0, 1, 0, 0, 0, 0, 1⟩

/-- `nx_dmat4_set_rotation`, `include/virg/nexus/nx_mat234.h:395-400`: `M` afterwards. -/
def dmat4SetRotation (M : M4 K) (R : M3 K) : M4 K :=
  { M with
    e0 := R.e0
    e4 := R.e3
    e8 := R.e6
    e1 := R.e1
    e5 := R.e4
    e9 := R.e7
    e2 := R.e2
    e6 := R.e5
    e10 := R.e8 }

/-- `nx_dmat4_set_translation`, `include/virg/nexus/nx_mat234.h:402-407`: `M` afterwards. -/
def dmat4SetTranslation (M : M4 K) (t : V3 K) : M4 K :=
  { M with
    e12 := t.e0
    e13 := t.e1
    e14 := t.e2 }

/-- `nx_dvec3_cross`, `include/virg/nexus/nx_vec234.h:92-97`. -/
def dvec3Cross (a b : V3 K) : V3 K where
  e0 := a.e1 * b.e2 - a.e2 * b.e1
  e1 := a.e2 * b.e0 - a.e0 * b.e2
  e2 := a.e0 * b.e1 - a.e1 * b.e0

/-- `nx_dvec3_dot`, `nx_svec3_dot`, `include/virg/nexus/nx_vec234.h:71-74` and `:99-102`. -/
def dvec3Dot (a b : V3 K) : K := a.e0 * b.e0 + a.e1 * b.e1 + a.e2 * b.e2

/-- `nx_dvec3_norm_sq`, `nx_svec3_norm_sq`, `include/virg/nexus/nx_vec234.h:57-60` and `:104-107`. -/
def dvec3NormSq (v : V3 K) : K := v.e0 * v.e0 + v.e1 * v.e1 + v.e2 * v.e2

/-- `nx_svec3_dist_sq`, `include/virg/nexus/nx_vec234.h:62-69`. -/
def svec3DistSq (v w : V3 K) : K :=
  let d0 := v.e0 - w.e0
  let d1 := v.e1 - w.e1
  let d2 := v.e2 - w.e2
  d0 * d0 + d1 * d1 + d2 * d2

/-- `nx_dvec3_to_unit`, `include/virg/nexus/nx_vec234.h:114-125`, for a square root function: `v` afterwards
and the returned norm. -/
def dvec3ToUnit [DecidableEq K] (sqrt : K → K) (v : V3 K) : V3 K × K :=
  let n := sqrt (dvec3NormSq v)
  (if n ≠ 0 then ⟨v.e0 / n, v.e1 / n, v.e2 / n⟩ else v, n)

/-! ## Matrices of any size, `include/virg/nexus/nx_mat.h` -/

/-- An array index computed in `int`. -/
def idx32 (i : Nat) : Res Nat := if i ≤ 2147483647 then .ok i else .ub

/-- `C[c * ldC + r] += A[j * ldA + r] * B[c * ldB + j]`, `include/virg/nexus/nx_mat.h:80-81`. -/
def dmatMulStep (A : List K) (ldA : Nat) (B : List K) (ldB ldC c r j : Nat) (C : List K) : Res (List K) := do
  let ic ← idx32 (c * ldC + r)
  let ia ← idx32 (j * ldA + r)
  let ib ← idx32 (c * ldB + j)
  let x ← readAt C ic
  let a ← readAt A ia
  let b ← readAt B ib
  writeAt C ic (x + a * b)

/-- The statements for one element, `include/virg/nexus/nx_mat.h:78-81`. -/
def dmatMulEntry (k : Nat) (A : List K) (ldA : Nat) (B : List K) (ldB ldC c r : Nat) (C : List K) : Res (List K) := do
  let ic ← idx32 (c * ldC + r)
  let C ← writeAt C ic 0
  forLoop k (dmatMulStep A ldA B ldB ldC c r) 0 C

/-- `nx_dmat_mul`, `include/virg/nexus/nx_mat.h:71-84`: `C` afterwards. The three arrays
do not overlap. -/
def dmatMul (m n k : Nat) (A : List K) (ldA : Nat) (B : List K) (ldB : Nat) (C : List K) (ldC : Nat) : Res (List K) :=
  forLoop n (fun c C => forLoop m (fun r C => dmatMulEntry k A ldA B ldB ldC c r C) 0 C) 0 C

/-- `nx_dmat_set`, `include/virg/nexus/nx_mat.h:61-69`, with `nx_dvec_set`
(`include/virg/nexus/nx_vec.h`); `nx_dmat_set_zero` for the value 0. -/
def dmatSet (m n : Nat) (A : List K) (ldA : Nat) (value : K) : Res (List K) :=
  if ldA ≥ m then
    forLoop n (fun i A => do
      let o ← idx32 (i * ldA)
      forLoop m (fun j A => writeAt A (o + j) value) 0 A) 0 A
  else .fatal

end Nx
