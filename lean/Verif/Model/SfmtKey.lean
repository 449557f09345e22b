import Verif.Model.Sfmt

/-!
# Model of the seeding of the random number generator with an array, `src/SFMT/SFMT.c:165-183, 384-453`

As in `Verif.Model.Sfmt`: little-endian, `idxof` is the identity, `SFMT_N32` is 624. `key_length` is an `int`, `init_key` is
the list of the words that may be read; the accesses to both arrays are checked.
-/

namespace Nx

/-- `func1`, `src/SFMT/SFMT.c:171-173`. -/
def sfmtFunc1 (x : BitVec 32) : BitVec 32 := (x ^^^ (x >>> 27)) * 1664525#32

/-- `func2`, `src/SFMT/SFMT.c:181-183`. -/
def sfmtFunc2 (x : BitVec 32) : BitVec 32 := (x ^^^ (x >>> 27)) * 1566083941#32

/-- `lag`, `src/SFMT/SFMT.c:398-406`, with `size` = `SFMT_N * 4`. -/
def keyLag : Nat := if sfmtN * 4 ≥ 623 then 11 else if sfmtN * 4 ≥ 68 then 7 else if sfmtN * 4 ≥ 39 then 5 else 3

/-- `mid`, `src/SFMT/SFMT.c:407`. -/
def keyMid : Nat := (sfmtN * 4 - keyLag) / 2

/-- The variables of the three loops: the words of the state and `i`. -/
structure KeyVars where
  st : List W128
  i : Nat

/-- The body of the first two loops, `src/SFMT/SFMT.c:424-430` and `:433-439`; `extra j` is the word of the key that is added
to `r`, nothing in the second loop. -/
def keyBody (extra : Nat → Res (BitVec 32)) (j : Nat) (s : KeyVars) : Res KeyVars := do
  let a ← readWord s.st s.i
  let b ← readWord s.st ((s.i + keyMid) % sfmtN32)
  let c ← readWord s.st ((s.i + sfmtN32 - 1) % sfmtN32)
  let r := sfmtFunc1 (a ^^^ b ^^^ c)
  let x ← readWord s.st ((s.i + keyMid) % sfmtN32)
  let st ← writeWord s.st ((s.i + keyMid) % sfmtN32) (x + r)
  let k ← extra j
  let r := r + (k + BitVec.ofNat 32 s.i)
  let y ← readWord st ((s.i + keyMid + keyLag) % sfmtN32)
  let st ← writeWord st ((s.i + keyMid + keyLag) % sfmtN32) (y + r)
  let st ← writeWord st s.i r
  pure ⟨st, (s.i + 1) % sfmtN32⟩

/-- The body of the last loop, `src/SFMT/SFMT.c:442-448`. -/
def mixBody (_ : Nat) (s : KeyVars) : Res KeyVars := do
  let a ← readWord s.st s.i
  let b ← readWord s.st ((s.i + keyMid) % sfmtN32)
  let c ← readWord s.st ((s.i + sfmtN32 - 1) % sfmtN32)
  let r := sfmtFunc2 (a + b + c)
  let x ← readWord s.st ((s.i + keyMid) % sfmtN32)
  let st ← writeWord s.st ((s.i + keyMid) % sfmtN32) (x ^^^ r)
  let r := r - BitVec.ofNat 32 s.i
  let y ← readWord st ((s.i + keyMid + keyLag) % sfmtN32)
  let st ← writeWord st ((s.i + keyMid + keyLag) % sfmtN32) (y ^^^ r)
  let st ← writeWord st s.i r
  pure ⟨st, (s.i + 1) % sfmtN32⟩

/-- The state after `memset`, `src/SFMT/SFMT.c:409`. -/
def keyBlank : List W128 := List.replicate sfmtN ⟨0x8b8b8b8b#32, 0x8b8b8b8b#32, 0x8b8b8b8b#32, 0x8b8b8b8b#32⟩

/-- The stores before the loops, `src/SFMT/SFMT.c:415-420`. -/
def keyFirst (st : List W128) (n : Int) : Res (List W128) := do
  let a ← readWord st 0
  let b ← readWord st keyMid
  let c ← readWord st (sfmtN32 - 1)
  let r := sfmtFunc1 (a ^^^ b ^^^ c)
  let x ← readWord st keyMid
  let st ← writeWord st keyMid (x + r)
  let r := r + BitVec.ofInt 32 n
  let y ← readWord st (keyMid + keyLag)
  let st ← writeWord st (keyMid + keyLag) (y + r)
  writeWord st 0 r

/-- `sfmt_init_by_array` up to the certification, `src/SFMT/SFMT.c:390-451`; `n` is `key_length`, the addition
`key_length + 1` overflows for the largest `int`. -/
def expandKey (key : List (BitVec 32)) (n : Int) : Res (List W128) :=
  if n + 1 > 2147483647 then .ub
  else do
    let count := if n + 1 > sfmtN32 then (n + 1).toNat else sfmtN32
    let st ← keyFirst keyBlank n
    let count := count - 1
    let j := min count n.toNat
    let s ← forLoop j (keyBody (readAt key)) 0 ⟨st, 1⟩
    let s ← forLoop count (keyBody fun _ => .ok 0) j s
    let s ← forLoop sfmtN32 mixBody 0 s
    pure s.st

/-- `sfmt_init_by_array`, `src/SFMT/SFMT.c:390-453`. -/
def initByArray (key : List (BitVec 32)) (n : Int) : Res Sfmt := do
  let st ← expandKey key n
  let st ← periodCertification st
  pure ⟨st, sfmtN32⟩

end Nx
