import Verif.Model.Mat
import Mathlib.Order.Defs.LinearOrder

/-!
# Model of quaternions and rotations

`src/nx_quaternion.c`, `include/virg/nexus/nx_quaternion.h`, `src/nx_rotation_3d.c`, in
exact arithmetic over a field `K` (see `Model/Mat.lean`). The functions `sqrt`, `cos` and
`sin` of the C library are parameters; the null pointer assertions are not modelled.
-/

namespace Nx

/-- An array of four numbers. -/
structure Q4 (K : Type) where
  e0 : K
  e1 : K
  e2 : K
  e3 : K
deriving DecidableEq, Repr

variable {K : Type} [Field K]

/-- `nx_quaternion_scale`, `include/virg/nexus/nx_quaternion.h:55-63`: `q` afterwards. -/
def quatScale (q : Q4 K) (s : K) : Q4 K := ⟨q.e0 * s, q.e1 * s, q.e2 * s, q.e3 * s⟩

/-- `nx_quaternion_add`, `include/virg/nexus/nx_quaternion.h:65-74`: `q` afterwards. -/
def quatAdd (q r : Q4 K) : Q4 K := ⟨q.e0 + r.e0, q.e1 + r.e1, q.e2 + r.e2, q.e3 + r.e3⟩

/-- `nx_quaternion_sum`, `include/virg/nexus/nx_quaternion.h:76-86`. -/
def quatSum (r s : Q4 K) : Q4 K := ⟨r.e0 + s.e0, r.e1 + s.e1, r.e2 + s.e2, r.e3 + s.e3⟩

/-- `nx_quaternion_mul`, `include/virg/nexus/nx_quaternion.h:88-102`: `q` afterwards. -/
def quatMul (q r : Q4 K) : Q4 K :=
  let q0 := q.e0 * r.e0 - q.e1 * r.e1 - q.e2 * r.e2 - q.e3 * r.e3
  let q1 := q.e0 * r.e1 + q.e1 * r.e0 + q.e2 * r.e3 - q.e3 * r.e2
  let q2 := q.e0 * r.e2 - q.e1 * r.e3 + q.e2 * r.e0 + q.e3 * r.e1
  let q3 := q.e0 * r.e3 + q.e1 * r.e2 - q.e2 * r.e1 + q.e3 * r.e0
  ⟨q0, q1, q2, q3⟩

/-- `nx_quaternion_prod`, `include/virg/nexus/nx_quaternion.h:104-114`. -/
def quatProd (r s : Q4 K) : Q4 K where
  e0 := r.e0 * s.e0 - r.e1 * s.e1 - r.e2 * s.e2 - r.e3 * s.e3
  e1 := r.e0 * s.e1 + r.e1 * s.e0 + r.e2 * s.e3 - r.e3 * s.e2
  e2 := r.e0 * s.e2 - r.e1 * s.e3 + r.e2 * s.e0 + r.e3 * s.e1
  e3 := r.e0 * s.e3 + r.e1 * s.e2 - r.e2 * s.e1 + r.e3 * s.e0

/-- `nx_quaternion_conj`, `include/virg/nexus/nx_quaternion.h:116-123`: `q` afterwards. -/
def quatConj (q : Q4 K) : Q4 K := ⟨q.e0, -q.e1, -q.e2, -q.e3⟩

/-- `nx_quaternion_dot`, `include/virg/nexus/nx_quaternion.h:125-131`. -/
def quatDot (q r : Q4 K) : K := r.e0 * q.e0 + r.e1 * q.e1 + r.e2 * q.e2 + r.e3 * q.e3

/-- `nx_quaternion_to_unit`, `include/virg/nexus/nx_quaternion.h:133-140`: `q` afterwards and
the returned norm. -/
def quatToUnit (sqrt : K → K) (q : Q4 K) : Q4 K × K :=
  let nrm := sqrt (quatDot q q)
  (quatScale q (1 / nrm), nrm)

/-- `nx_quaternion_from_axis_angle`, `include/virg/nexus/nx_quaternion.h:154-179`. -/
def quatFromAxisAngle [DecidableEq K] (sqrt cos sin : K → K) (axis : V3 K) (angle : K) : Q4 K :=
  if angle = 0 then ⟨1, 0, 0, 0⟩
  else
    let ca2 := cos (angle * (1 / 2))
    let sa2 := sin (angle * (1 / 2))
    let n := (dvec3ToUnit sqrt axis).1
    ⟨ca2, n.e0 * sa2, n.e1 * sa2, n.e2 * sa2⟩

/-- `nx_quaternion_from_R`, `src/nx_quaternion.c:28-66`. -/
def quatFromR [LinearOrder K] (sqrt : K → K) (R : M3 K) : Q4 K :=
  let dSum := R.e0 + R.e4 + R.e8
  if dSum > 0 then
    let t := dSum + 1
    let s := (1 / 2) / sqrt t
    { e0 := s * t
      e3 := (R.e1 - R.e3) * s
      e2 := (R.e6 - R.e2) * s
      e1 := (R.e5 - R.e7) * s }
  else if R.e0 > R.e4 ∧ R.e0 > R.e8 then
    let t := R.e0 - R.e4 - R.e8 + 1
    let s := (1 / 2) / sqrt t
    { e1 := s * t
      e2 := (R.e1 + R.e3) * s
      e3 := (R.e6 + R.e2) * s
      e0 := (R.e5 - R.e7) * s }
  else if R.e4 > R.e8 then
    let t := -R.e0 + R.e4 - R.e8 + 1
    let s := (1 / 2) / sqrt t
    { e2 := s * t
      e1 := (R.e1 + R.e3) * s
      e0 := (R.e6 - R.e2) * s
      e3 := (R.e5 + R.e7) * s }
  else
    let t := -R.e0 - R.e4 + R.e8 + 1
    let s := (1 / 2) / sqrt t
    { e3 := s * t
      e0 := (R.e1 - R.e3) * s
      e1 := (R.e6 + R.e2) * s
      e2 := (R.e5 + R.e7) * s }

/-- `nx_quaternion_to_R`, `src/nx_quaternion.c:68-95`. -/
def quatToR (q : Q4 K) : M3 K :=
  let q1_2 := q.e1 * q.e1
  let q2_2 := q.e2 * q.e2
  let q3_2 := q.e3 * q.e3
  let q1_q2 := q.e1 * q.e2
  let q0_q3 := q.e0 * q.e3
  let q1_q3 := q.e1 * q.e3
  let q0_q2 := q.e0 * q.e2
  let q0_q1 := q.e0 * q.e1
  let q2_q3 := q.e2 * q.e3
  { e0 := 1 - 2 * (q2_2 + q3_2)
    e1 := 2 * (q1_q2 + q0_q3)
    e2 := 2 * (q1_q3 - q0_q2)
    e3 := 2 * (q1_q2 - q0_q3)
    e4 := 1 - 2 * (q1_2 + q3_2)
    e5 := 2 * (q2_q3 + q0_q1)
    e6 := 2 * (q1_q3 + q0_q2)
    e7 := 2 * (q2_q3 - q0_q1)
    e8 := 1 - 2 * (q1_2 + q2_2) }

/-- `nx_quaternion_rotate`, `src/nx_quaternion.c:97-142`: `v` afterwards. -/
def quatRotate (q : Q4 K) (v : V3 K) : V3 K :=
  let q0_2 := q.e0 * q.e0
  let q1_2 := q.e1 * q.e1
  let q2_2 := q.e2 * q.e2
  let q3_2 := q.e3 * q.e3
  let q12 := q.e1 * q.e2
  let q01 := q.e0 * q.e1
  let q02 := q.e0 * q.e2
  let q03 := q.e0 * q.e3
  let q13 := q.e1 * q.e3
  let q23 := q.e2 * q.e3
  let q0_2_q1_2 := q0_2 - q1_2
  let q2_2_q3_2 := q2_2 - q3_2
  let t0 := (q0_2 + q1_2 - q2_2 - q3_2) * v.e0
  let t1 := 2 * (q12 + q03) * v.e0
  let t2 := 2 * (q13 - q02) * v.e0
  let t3 := 2 * (q12 - q03) * v.e1
  let t4 := (q0_2_q1_2 + q2_2_q3_2) * v.e1
  let t5 := 2 * (q23 + q01) * v.e1
  let t6 := 2 * (q13 + q02) * v.e2
  let t7 := 2 * (q23 - q01) * v.e2
  let t8 := (q0_2_q1_2 - q2_2_q3_2) * v.e2
  ⟨t0 + t3 + t6, t1 + t4 + t7, t2 + t5 + t8⟩

/-- `nx_rotation_3d_RzRyRx`, `src/nx_rotation_3d.c:33-55`. -/
def rotationRzRyRx (cos sin : K → K) (alpha beta gamma : K) : M3 K :=
  let ca := cos alpha
  let sa := sin alpha
  let cb := cos beta
  let sb := sin beta
  let cg := cos gamma
  let sg := sin gamma
  let sbsa := sb * sa
  let sbca := sb * ca
  { e0 := cg * cb
    e1 := sg * cb
    e2 := -sb
    e3 := -sg * ca + cg * sbsa
    e4 := cg * ca + sg * sbsa
    e5 := cb * sa
    e6 := sg * sa + cg * sbca
    e7 := -cg * sa + sg * sbca
    e8 := cb * ca }

/-- `nx_rotation_3d_RxRyRz`, `src/nx_rotation_3d.c:57-79`. -/
def rotationRxRyRz (cos sin : K → K) (alpha beta gamma : K) : M3 K :=
  let ca := cos alpha
  let sa := sin alpha
  let cb := cos beta
  let sb := sin beta
  let cg := cos gamma
  let sg := sin gamma
  let sbsa := sb * sa
  let sbca := sb * ca
  { e0 := cg * cb
    e1 := cg * sbsa + sg * ca
    e2 := -cg * sbca + sg * sa
    e3 := -sg * cb
    e4 := -sg * sbsa + cg * ca
    e5 := sg * sbca + cg * sa
    e6 := sb
    e7 := -cb * sa
    e8 := cb * ca }

/-- `nx_rotation_3d_axis_angle`, `src/nx_rotation_3d.c:81-99`. -/
def rotationAxisAngle [DecidableEq K] (sqrt cos sin : K → K) (axis : V3 K) (theta : K) : M3 K :=
  let v := (dvec3ToUnit sqrt axis).1
  let c := cos theta
  let s := sin theta
  { e0 := c + v.e0 * v.e0 * (1 - c)
    e1 := v.e1 * v.e0 * (1 - c) + v.e2 * s
    e2 := v.e2 * v.e0 * (1 - c) - v.e1 * s
    e3 := v.e1 * v.e0 * (1 - c) - v.e2 * s
    e4 := c + v.e1 * v.e1 * (1 - c)
    e5 := v.e2 * v.e1 * (1 - c) + v.e0 * s
    e6 := v.e0 * v.e2 * (1 - c) + v.e1 * s
    e7 := v.e1 * v.e2 * (1 - c) - v.e0 * s
    e8 := c + v.e2 * v.e2 * (1 - c) }

end Nx
