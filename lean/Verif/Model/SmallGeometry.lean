import Verif.Model.Rotation
import Verif.Lemmas.Sample

/-!
# Model of further functions on small matrices and vectors

`include/virg/nexus/nx_rotation_3d.h`, `nx_quaternion.h`, `nx_vec234.h`, `nx_vec.h`, `nx_mat234.h`, in exact arithmetic over a field `K`;
`rd` rounds to `float`.
-/

namespace Nx

variable {K : Type} [Field K]

/-- `nx_rotation_3d_invert`, `include/virg/nexus/nx_rotation_3d.h:33-39`, assignment by assignment. -/
def rotationInvert (R : M3 K) : M3 K :=
  let t := R.e1
  let R := { R with e1 := R.e3 }
  let R := { R with e3 := t }
  let t := R.e2
  let R := { R with e2 := R.e6 }
  let R := { R with e6 := t }
  let t := R.e5
  let R := { R with e5 := R.e7 }
  { R with e7 := t }

/-- `nx_quaternion_to_Rt`, `include/virg/nexus/nx_quaternion.h:142-152`: `q` has seven numbers. -/
def quatToRt (q : List K) : Res (M3 K × V3 K) := do
  let q0 ← readAt q 0
  let q1 ← readAt q 1
  let q2 ← readAt q 2
  let q3 ← readAt q 3
  let t0 ← readAt q 4
  let t1 ← readAt q 5
  let t2 ← readAt q 6
  pure (quatToR ⟨q0, q1, q2, q3⟩, ⟨t0, t1, t2⟩)

/-- `nx_svec4h_to_euclidean`, `include/virg/nexus/nx_vec234.h:76-85`: `v` afterwards, or `none` for infinities and NaN, and the returned
number. -/
def svec4hToEuclidean [DecidableEq K] (v : Q4 K) : Option (Q4 K) × K :=
  let w := v.e3
  (if w = 0 then none else some ⟨v.e0 / w, v.e1 / w, v.e2 / w, 1⟩, w)

/-- `nx_dvec_norm_sq`, `nx_svec_norm_sq`, `include/virg/nexus/nx_vec.h:88-98` and `:127-137`. -/
def dvecNormSq (n : Nat) (v : List K) : Res K :=
  forLoop n (fun i s => do
    let x ← readAt v i
    pure (s + x * x)) 0 0

/-- `nx_dvec_norm`, `nx_svec_norm`, `include/virg/nexus/nx_vec.h:100-106` and `:140-146`. -/
def dvecNorm (sqrt : K → K) (n : Nat) (v : List K) : Res K := do
  let s ← dvecNormSq n v
  pure (sqrt s)

/-- `nx_dvec_axpy`, `include/virg/nexus/nx_vec.h:108-117`, for arrays `y` and `x`. -/
def dvecAxpy (n : Nat) (y : List K) (a : K) (x : List K) : Res (List K) :=
  forLoop n (fun i y => do
    let yi ← readAt y i
    let xi ← readAt x i
    writeAt y i (yi + a * xi)) 0 y

/-- `nx_dvec_axpy`, `include/virg/nexus/nx_vec.h:108-117`, where `x` is the same array. -/
def dvecAxpySelf (n : Nat) (y : List K) (a : K) : Res (List K) :=
  forLoop n (fun i y => do
    let yi ← readAt y i
    let xi ← readAt y i
    writeAt y i (yi + a * xi)) 0 y

/-- `nx_sdmat3_inv`, `include/virg/nexus/nx_mat234.h:130-146`: the matrix is copied before and rounded afterwards, so that the arrays may be
the same. -/
def sdmat3Inv [DecidableEq K] (rd : K → K) (M : M3 K) : M3 K × K :=
  let r := dmat3Inv M
  (⟨rd r.1.e0, rd r.1.e1, rd r.1.e2, rd r.1.e3, rd r.1.e4, rd r.1.e5, rd r.1.e6, rd r.1.e7, rd r.1.e8⟩, r.2)

end Nx
