import Verif.Model.Stream

/-!
# Model of the binary string serialization, `src/nx_string.c:99-147`
-/

namespace Nx

/-- `nx_strwrite(s, stream)`, `src/nx_string.c:99-112`: the bytes written for a
non-NULL string. The length is a `size_t` (8 bytes). -/
def strwrite (s : Bytes) : Bytes := leBytes 8 s.length ++ s

/-- Result of `nx_strread`. -/
structure StrRead where
  /-- return value: 0 on success, 1 on failure -/
  ret : Nat
  /-- size of the allocation `*s` points to afterwards -/
  alloc : Nat
  /-- on success the bytes stored before the terminator -/
  content : Bytes
  /-- rest of the stream -/
  rest : Bytes
deriving DecidableEq, Repr

/-- `nx_strread(&s, size, stream)`, `src/nx_string.c:114-133`. `alloc` is the
size of the allocation behind `*s` (0 for NULL). The new allocation size `ls+1`
is computed in `size_t` arithmetic, i.e. modulo 2^64. Allocation failure (an
abort) is not modelled. -/
def strread (alloc size : Nat) (st : Bytes) : Res StrRead :=
  match fread1 8 st with
  | (none, rest) => .ok { ret := 1, alloc := alloc, content := [], rest := rest }
  | (some lb, st1) =>
    let ls := leVal lb
    let alloc' := if ls ≥ size then (ls + 1) % 18446744073709551616 else alloc
    let (data, st2) := freadBytes ls st1
    if data.length ≤ alloc' ∧ ls < alloc' then
      if data.length ≠ ls then
        .ok { ret := 1, alloc := alloc', content := [], rest := st2 }
      else
        .ok { ret := 0, alloc := alloc', content := data, rest := st2 }
    else .ub

/-- `nx_strread0(stream)`, `src/nx_string.c:135-147`: `none` for NULL. -/
def strread0 (st : Bytes) : Res (Option Bytes × Bytes) := do
  let r ← strread 0 0 st
  if r.ret ≠ 0 then pure (none, r.rest) else pure (some r.content, r.rest)

end Nx
