import Verif.Model.SiftDog
import Verif.Model.Mat

/-!
# Model of the interpolation of extrema, `src/nx_sift_detector.c`

Exact arithmetic. `nx_dmat3_sym_solve_single` (`include/virg/nexus/nx_mat234.h:305-310`) calls LAPACK and is a parameter that gets the
array of nine numbers and the right hand side; `none` is the result `NX_FALSE`.
-/

namespace Nx

section
variable {K : Type} [Field K] [LinearOrder K]

/-- Value, gradient and array of second derivatives, `src/nx_sift_detector.c:429-459`. -/
def peakSystem (d : Dogs K) (x y : Int) : Res (K × V3 K × M3 K) := do
  let r ← dogAt d.c (x + 1) y
  let l ← dogAt d.c (x - 1) y
  let b ← dogAt d.c x (y + 1)
  let t ← dogAt d.c x (y - 1)
  let p ← dogAt d.p x y
  let m ← dogAt d.m x y
  let c ← dogAt d.c x y
  let br ← dogAt d.c (x + 1) (y + 1)
  let bl ← dogAt d.c (x - 1) (y + 1)
  let tr ← dogAt d.c (x + 1) (y - 1)
  let tl ← dogAt d.c (x - 1) (y - 1)
  let pr ← dogAt d.p (x + 1) y
  let pl ← dogAt d.p (x - 1) y
  let mr ← dogAt d.m (x + 1) y
  let ml ← dogAt d.m (x - 1) y
  let pb ← dogAt d.p x (y + 1)
  let pt ← dogAt d.p x (y - 1)
  let mb ← dogAt d.m x (y + 1)
  let mt ← dogAt d.m x (y - 1)
  pure (c, ⟨(r - l) / 2, (b - t) / 2, (p - m) / 2⟩,
    ⟨l - 2 * c + r, ((br - bl) - (tr - tl)) / 4, ((pr - pl) - (mr - ml)) / 4,
     0, t - 2 * c + b, ((pb - pt) - (mb - mt)) / 4,
     0, 0, m - 2 * c + p⟩)

/-- The move of one coordinate, `src/nx_sift_detector.c:466-475`. -/
def peakMove (b : K) (x : Int) (size : Nat) : Int :=
  if b > 3 / 5 ∧ x < (size : Int) - 3 then 1 else if b < -(3 / 5) ∧ x > 3 then -1 else 0

/-- The loop, `src/nx_sift_detector.c:424-481`; `prev` are the variables `b` and `dval`, which are not initialised at first. The result is
empty if the function returns. -/
def peakLoop (solve : M3 K → V3 K → Option (V3 K)) (d : Dogs K) : Nat → Int → Int → Option (V3 K × K) → Res (Option (Int × Int × V3 K × K))
  | 0, x, y, some (b, v) => .ok (some (x, y, b, v))
  | 0, _, _, none => .ub
  | n + 1, x, y, _ => do
    let (c, g, a) ← peakSystem d x y
    match solve a ⟨-g.e0, -g.e1, -g.e2⟩ with
    | none => pure none
    | some b =>
      let v := c + 1 / 2 * (g.e0 * b.e0 + g.e1 * b.e1 + g.e2 * b.e2)
      let dx := peakMove b.e0 x d.c.width
      let dy := peakMove b.e1 y d.c.height
      if dx = 0 ∧ dy = 0 then pure (some (x, y, b, v)) else peakLoop solve d n (x + dx) (y + dy) (some (b, v))

/-- `nx_sift_interp_peak_location`, `src/nx_sift_detector.c:412-488`: value, scale and position for `nx_sift_compute_keys`, if it is
called. -/
def interpPeak (solve : M3 K → V3 K → Option (V3 K)) (d : Dogs K) (thr : K) (i x y : Int) : Res (Option (K × K × K × K)) := do
  match ← peakLoop solve d 5 x y none with
  | none => pure none
  | some (x, y, b, v) =>
    if |b.e0| > 3 / 2 ∨ |b.e1| > 3 / 2 ∨ |b.e2| > 3 / 2 ∨ |v| < thr then pure none
    else pure (some (v, i + b.e2, x + b.e0, y + b.e1))

end

end Nx
