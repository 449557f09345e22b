import Verif.Model.BitOps
import Verif.Model.FastThreshold

/-!
# Model of the in-place transpose, `include/virg/nexus/nx_mat.h:86-122`

The elements are of an arbitrary type. The products of `size_t` values do not wrap:
both factors are below 2^31.
-/

namespace Nx

/-- The `do … while` loop following a cycle, `include/virg/nexus/nx_mat.h:107-115`:
the array and the marks after it. Not having ended after `fuel` iterations is the
outcome `ub`. -/
def cycleLoop {α : Type} (n q start : Nat) : Nat → List α → Bytes → Nat → Nat → α → Res (List α × Bytes)
  | 0, _, _, _, _, _ => .ub
  | fuel + 1, A, moved, idx0, idx1, t0 => do
    let t1 ← readAt A idx1
    let A ← writeAt A idx1 t0
    let moved ← bitArraySet moved idx0 true
    if idx1 ≠ start then cycleLoop n q start fuel A moved idx1 (idx1 * n % (q - 1)) t1
    else pure (A, moved)

/-- The body of the outer loop, `include/virg/nexus/nx_mat.h:97-117`. -/
def transposeStep {α : Type} (n q i : Nat) (A : List α) (moved : Bytes) : Res (List α × Bytes) := do
  let b ← bitArrayGet moved i
  if b = 0 then
    (if i ≠ i * n % (q - 1) then do
      let t0 ← readAt A i
      cycleLoop n q i q A moved i (i * n % (q - 1)) t0
    else pure (A, moved))
  else pure (A, moved)

/-- The outer loop, `include/virg/nexus/nx_mat.h:96-119`. -/
def transposeLoop {α : Type} (n q i : Nat) (A : List α) (moved : Bytes) : Res (List α) :=
  if i < q - 1 then do
    let r ← transposeStep n q i A moved
    transposeLoop n q (i + 1) r.1 r.2
  else pure A
termination_by q - 1 - i

/-- `nx_dmat_transpose`, `include/virg/nexus/nx_mat.h:86-122`. -/
def transpose {α : Type} (m n : Nat) (A : List α) : Res (List α) :=
  if m > 0 then
    if n > 0 then
      if m * n ≤ 2147483647 then transposeLoop n (m * n) 1 A (bitArrayNewZero (m * n)) else .ub
    else .fatal
  else .fatal

end Nx
