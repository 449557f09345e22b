import Verif.Model.Getline
import Verif.Model.Transpose
import Verif.Model.Sample
import Verif.Model.SiftFiles

/-!
# Model of matrices as text, `src/nx_mat.c`

The type `D` of numbers, the format `"%.17g"` and the function `strtod` are parameters: `fmt d` is the text of `d`; `scan s` is the number at the start of
the string `s` with the number of bytes used, or `none` (`endptr` is the start of the string). Counts of type `int` do not overflow.
-/

namespace Nx

section
variable {D : Type}

/-- `nx_dmat_xwrite`, `src/nx_mat.c:32-49`: the text that is written. -/
def dmatXwrite (fmt : D → Bytes) (m n : Nat) (A : List D) : Res Bytes :=
  forLoop m (fun r out => forLoop n (fun c out => do
    let e ← readAt A (c * m + r)
    let out := out ++ fmt e
    if c + 1 = n then pure (out ++ [10]) else pure (out ++ [32])) 0 out) 0 []

/-- The array of `nx_dmat_xread`: `A`, `sz` and `cap`. -/
structure NumArr (D : Type) where
  A : List D
  sz : Nat
  cap : Nat

/-- A number is appended, `src/nx_mat.c:80-84`. -/
def numPush (junk : Nat → D) (a : NumArr D) (d : D) : Res (NumArr D) := do
  let a := if a.cap ≤ a.sz then { a with cap := a.cap * 2, A := reallocMem junk a.A (a.cap * 2) } else a
  let A ← writeAt a.A a.sz d
  pure { a with A := A, sz := a.sz + 1 }

/-- The string at the start of a buffer. -/
def bufText (buf : Bytes) : Res Bytes := if 0 ∈ buf then .ok (buf.takeWhile (· ≠ 0)) else .ub

/-- The numbers of a line, `src/nx_mat.c:73-85`: the array and the number of elements. A conversion that ends behind the string is undefined. -/
def lineLoop (junk : Nat → D) (scan : Bytes → Option (D × Nat)) (s : Bytes) (a : NumArr D) (ml : Nat) : Res (NumArr D × Nat) :=
  match scan s with
  | none => .ok (a, ml)
  | some (d, k) =>
    if k = 0 then .ok (a, ml)
    else if h : k ≤ s.length ∧ 0 < k then do
      let a ← numPush junk a d
      lineLoop junk scan (s.drop k) a (ml + 1)
    else .ub
termination_by s.length
decreasing_by
  rw [List.length_drop]
  omega

/-- The loop over lines, `src/nx_mat.c:66-99`: the array, `*m` and `*n`. -/
def xreadLoop (junk : Nat → D) (scan : Bytes → Option (D × Nat)) : Nat → Bytes → Nat → Bytes → NumArr D → Nat → Nat → Res (NumArr D × Nat × Nat)
  | 0, _, _, _, _, _, _ => .ub
  | fuel + 1, line, llen, st, a, m, n => do
    let (r, line, llen, st) ← getline line llen st
    if r > 0 then do
      let s ← bufText line
      let (a, ml) ← lineLoop junk scan s a 0
      if n = 0 then xreadLoop junk scan fuel line llen st a ml 1
      else if m ≠ ml then .fatal
      else xreadLoop junk scan fuel line llen st a m (n + 1)
    else pure (a, m, n)

/-- `nx_dmat_xread`, `src/nx_mat.c:51-113`: `none` for NULL, otherwise the array and its two sizes. The transposition changes the first `m * n` elements. There
are at most as many lines as bytes. -/
def dmatXread (junk : Nat → D) (junkB : Nat → Byte) (scan : Bytes → Option (D × Nat)) (st : Bytes) : Res (Option (List D × Nat × Nat)) := do
  let (a, m, n) ← xreadLoop junk scan (st.length + 1) ((List.range 256).map junkB) 256 st ⟨(List.range 9).map junk, 0, 9⟩ 0 0
  if m = 0 ∨ n = 0 then pure none
  else do
    let T ← transpose m n (a.A.take (m * n))
    pure (some (T ++ a.A.drop (m * n), n, m))

end

end Nx
