import Verif.Core

/-!
# Model of `nx_memncpy_multi`, `src/nx_string.c:210-247`
-/

namespace Nx

/-- The copy loop, `src/nx_string.c:226-244`. `srcs` are the source buffers,
`n` the bytes still wanted, `so`/`off` the cursor `*src_offset`/`*offset`, `acc`
the bytes stored at `dest` so far. An offset beyond the buffer makes the
unsigned difference `l_left` wrap around and the copy read out of bounds. -/
def memncpyLoop (srcs : List Bytes) (n so off : Nat) (acc : Bytes) : Res (Bytes × Nat × Nat) :=
  if h : 0 < n ∧ so < srcs.length then
    let s := srcs[so]
    if off > s.length then .ub
    else
      let left := s.length - off
      if left > n then .ok (acc ++ (s.drop off).take n, so, off + n)
      else memncpyLoop srcs (n - left) (so + 1) 0 (acc ++ s.drop off)
  else .ok (acc, so, off)
termination_by srcs.length - so

/-- `nx_memncpy_multi(dest, n_src, src, l_src, n, &src_offset, &offset)`,
`src/nx_string.c:210-247`. Returns the bytes stored at `dest` (their number is
the return value) and the updated cursor. The element `l_src[n_src]` behind the
length array, which line 221 reads when the cursor is at the end, is `tail`:
`none` if no such element exists (undefined behaviour), `some v` if the memory
there happens to be readable and holds `v`. -/
def memncpyMulti (tail : Option Nat) (srcs : List Bytes) (n so off : Nat) :
    Res (Bytes × Nat × Nat) :=
  if srcs.length = 0 then .fatal
  else
    let l? := if h : so < srcs.length then some srcs[so].length
      else if so = srcs.length then tail else none
    match l? with
    | none => .ub
    | some l =>
      if off > l then memncpyLoop srcs n (so + 1) 0 []
      else memncpyLoop srcs n so off []

end Nx
