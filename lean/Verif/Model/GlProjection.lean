import Verif.Model.Mat

/-!
# Model of `src/GL/nx_gl_projection.c`

Numbers are elements of a field as in `Verif.Model.Mat`; the conversion of a `double` to a `GLfloat` is a parameter. A `NULL`
pointer is `none`; `NX_ASSERT_PTR` that fails is `fatal` (debug build).
-/

namespace Nx

variable {K : Type} [Field K]

/-- `nx_gl_projection_sym_perspective_from_camera`, `src/GL/nx_gl_projection.c:33-46`: the contents of `P` afterwards. -/
def glPerspective (P : Option (M4 K)) (fx fy near far vpW vpH : K) : Res (M4 K) :=
  match P with
  | none => .fatal
  | some _ =>
    let P : M4 K := ⟨0, 0, 0, 0, 0, 0, 0, 0, 0, 0, 0, 0, 0, 0, 0, 0⟩
    let P := { P with e0 := 2 * fx / vpW }
    let P := { P with e5 := 2 * fy / vpH }
    let P := { P with e10 := -(far + near) / (far - near) }
    let P := { P with e11 := -1 }
    let P := { P with e14 := -2 * near * far / (far - near) }
    .ok P

/-- The copy at the end of `nx_gl_projection_to_mvp`, `src/GL/nx_gl_projection.c:72-73`. -/
def m4Cast {K L : Type} (cast : K → L) (A : M4 K) : M4 L :=
  ⟨cast A.e0, cast A.e1, cast A.e2, cast A.e3, cast A.e4, cast A.e5, cast A.e6, cast A.e7,
   cast A.e8, cast A.e9, cast A.e10, cast A.e11, cast A.e12, cast A.e13, cast A.e14, cast A.e15⟩

/-- `nx_gl_projection_to_mvp`, `src/GL/nx_gl_projection.c:48-74`: the contents of `mvp` afterwards. -/
def glToMvp {L : Type} (cast : K → L) (mvp : Option (M4 L)) (M V P : Option (M4 K)) : Res (M4 L) :=
  match mvp, P with
  | some _, some P =>
    let PV := match V with
      | some V => dmat4Mul P V
      | none => P
    let PVM := match M with
      | some M => dmat4Mul PV M
      | none => PV
    .ok (m4Cast cast PVM)
  | _, _ => .fatal

end Nx
