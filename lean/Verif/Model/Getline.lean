import Verif.Model.Stream

/-!
# Model of `nx_getline`, `src/nx_io.c:173-207`
-/

namespace Nx

/-- Rounding of a natural number to 24 significant bits, ties to even: conversion of
an integer (or of an exact product) to `float`. -/
def round24 (x : Nat) : Nat :=
  let s := Nat.log2 x + 1 - 24
  if s = 0 then x
  else
    let q := x / 2 ^ s
    let r := x % 2 ^ s
    if r > 2 ^ (s - 1) ∨ (r = 2 ^ (s - 1) ∧ q % 2 = 1) then (q + 1) * 2 ^ s else q * 2 ^ s

/-- `(int)(*n * 1.6f)`, `src/nx_io.c:176`: the literal `1.6f` is 13421773/2^23; the
number and the product are rounded to `float`. -/
def times16f (n : Nat) : Nat := round24 (round24 n * 13421773) / 8388608

/-- The variables `*line` (its allocation), `*n` and `idx` of `nx_getline`. -/
structure LineBuf where
  buf : Bytes
  n : Nat
  idx : Nat
deriving DecidableEq, Repr

/-- `nx_xrealloc`: the contents are kept up to the smaller size, new bytes have
unspecified values (0 here). -/
def reallocBytes (buf : Bytes) (size : Nat) : Bytes := buf.take size ++ List.replicate (size - buf.length) 0

/-- The new size of the buffer, `src/nx_io.c:176`. -/
def newSize (n : Nat) : Nat := if 4 > times16f n then 4 else times16f n

/-- Growing the buffer, `src/nx_io.c:175-179`. The conversion of a `float` that does
not fit an `int` is undefined. -/
def growBuf (b : LineBuf) : Res LineBuf :=
  if times16f b.n < 2147483648 then .ok ⟨reallocBytes b.buf (newSize b.n), newSize b.n, b.idx⟩ else .ub

/-- `NX_EXPAND_IF_NECESSARY_AND_APPEND_CHAR`, `src/nx_io.c:173-181`. -/
def appendChar (b : LineBuf) (c : UInt8) : Res LineBuf := do
  let b ← (if b.idx ≥ b.n then growBuf b else Res.ok b)
  let buf ← writeAt b.buf b.idx c
  pure ⟨buf, b.n, b.idx + 1⟩

/-- Appending the character that ended the loop unless it is EOF, `src/nx_io.c:195-197`. -/
def appendNewline (b : LineBuf) : Option UInt8 → Res LineBuf
  | some c => appendChar b c
  | none => .ok b

/-- The loop `src/nx_io.c:191-193`: the buffer, the character that ended the loop
(`none` for EOF) and the rest of the stream. -/
def getlineLoop (b : LineBuf) : Bytes → Res (LineBuf × Option UInt8 × Bytes)
  | [] => .ok (b, none, [])
  | c :: st =>
    if c = 10 then .ok (b, some c, st)
    else do
      let b ← appendChar b c
      getlineLoop b st

/-- `nx_getline`, `src/nx_io.c:184-207`: the return value, `*line`, `*n` and the rest
of the stream. -/
def getline (buf : Bytes) (n : Nat) (st : Bytes) : Res (Int × Bytes × Nat × Bytes) := do
  let r ← getlineLoop ⟨buf, n, 0⟩ st
  let b ← appendNewline r.1 r.2.1
  let b ← appendChar b 0
  pure (if b.idx = 0 then -1 else (b.idx : Int) - 1, b.buf, b.n, r.2.2)

/-- Repeated calls with the same buffer until the return value is 0: the contents of
the lines (`fuel` bounds the number of calls). -/
def readLines : Nat → Bytes → Nat → Bytes → Res (List Bytes)
  | 0, _, _, _ => .ub
  | fuel + 1, buf, n, st => do
    let r ← getline buf n st
    if r.1 = 0 then pure []
    else do
      let ls ← readLines fuel r.2.1 r.2.2.1 r.2.2.2
      pure (r.2.1.take r.1.toNat :: ls)

end Nx
