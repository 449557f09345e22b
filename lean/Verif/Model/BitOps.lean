import Verif.Core

/-!
# Model of `include/virg/nexus/nx_bit_ops.h` and `src/nx_bit_ops.c`
-/

namespace Nx

/-- `MASK32(c)`, `src/nx_bit_ops.c:31-32`: all ones divided by `2^(2^c) + 1`. -/
def mask32 (c : Nat) : BitVec 32 := BitVec.allOnes 32 / ((1#32 <<< (2 ^ c)) + 1#32)

/-- `COUNT32(x,c)`, `src/nx_bit_ops.c:33`. -/
def count32 (x : BitVec 32) (c : Nat) : BitVec 32 :=
  (x &&& mask32 c) + ((x >>> (2 ^ c)) &&& mask32 c)

/-- `nx_bit_count32`, `src/nx_bit_ops.c:39-47`. -/
def bitCount32 (x : BitVec 32) : BitVec 32 :=
  count32 (count32 (count32 (count32 (count32 x 0) 1) 2) 3) 4

/-- `MASK64(c)`, `src/nx_bit_ops.c:35-36`. -/
def mask64 (c : Nat) : BitVec 64 := BitVec.allOnes 64 / ((1#64 <<< (2 ^ c)) + 1#64)

/-- `COUNT64(x,c)`, `src/nx_bit_ops.c:37`. -/
def count64 (x : BitVec 64) (c : Nat) : BitVec 64 :=
  (x &&& mask64 c) + ((x >>> (2 ^ c)) &&& mask64 c)

/-- `nx_bit_count64`, `src/nx_bit_ops.c:49-58` (the value before conversion to
`int`, which is exact because it is at most 64). -/
def bitCount64 (x : BitVec 64) : BitVec 64 :=
  count64 (count64 (count64 (count64 (count64 (count64 x 0) 1) 2) 3) 4) 5

/-- `nx_rotr32(x, n)`, `include/virg/nexus/nx_bit_ops.h:40-43`. Shifting a
32-bit operand by 32 or more is undefined. -/
def rotr32 (x : BitVec 32) (n : Nat) : Res (BitVec 32) :=
  if n < 32 ∧ 32 - n < 32 then .ok ((x >>> n) ||| (x <<< (32 - n))) else .ub

/-- `nx_rotr64(x, n)`, `include/virg/nexus/nx_bit_ops.h:45-48`. -/
def rotr64 (x : BitVec 64) (n : Nat) : Res (BitVec 64) :=
  if n < 64 ∧ 64 - n < 64 then .ok ((x >>> n) ||| (x <<< (64 - n))) else .ub

/-- `(uint8_t)(x >> s)`. -/
def byteAt {w : Nat} (x : BitVec w) (s : Nat) : Byte := UInt8.ofBitVec ((x >>> s).setWidth 8)

/-- `nx_split_big_endian32`, `include/virg/nexus/nx_bit_ops.h:50-55`: the four
bytes stored at `bytep`. -/
def splitBE32 (x : BitVec 32) : Bytes := [byteAt x 24, byteAt x 16, byteAt x 8, byteAt x 0]

/-- `nx_split_big_endian64`, `include/virg/nexus/nx_bit_ops.h:57-66`. -/
def splitBE64 (x : BitVec 64) : Bytes :=
  [byteAt x 56, byteAt x 48, byteAt x 40, byteAt x 32, byteAt x 24, byteAt x 16, byteAt x 8,
    byteAt x 0]

/-- `nx_compose_big_endian32`, `include/virg/nexus/nx_bit_ops.h:68-73`, on the
four bytes at `bytep`. -/
def composeBE32 (b0 b1 b2 b3 : Byte) : BitVec 32 :=
  (b0.toBitVec.setWidth 32 <<< 24) ||| (b1.toBitVec.setWidth 32 <<< 16) |||
    (b2.toBitVec.setWidth 32 <<< 8) ||| (b3.toBitVec.setWidth 32)

/-- `nx_bit_array_new` + `nx_bit_array_set_zero`,
`include/virg/nexus/nx_bit_ops.h:75-83`: `(n_bits+7)/8` zero bytes. (The
allocation alone leaves the bytes indeterminate; every user in the library
clears it first.) -/
def bitArrayNewZero (nBits : Nat) : Bytes := List.replicate ((nBits + 7) / 8) 0

/-- `nx_bit_array_set`, `include/virg/nexus/nx_bit_ops.h:85-92`. -/
def bitArraySet (bits : Bytes) (idx : Nat) (value : Bool) : Res Bytes := do
  let b ← readAt bits (idx / 8)
  let m : Byte := 1 <<< UInt8.ofNat (idx % 8)
  writeAt bits (idx / 8) (if value then b ||| m else b &&& ~~~ m)

/-- `nx_bit_array_get`, `include/virg/nexus/nx_bit_ops.h:94-98`; the returned
`NXBool` is the masked byte, so "true" is any non-zero value. -/
def bitArrayGet (bits : Bytes) (idx : Nat) : Res Byte := do
  let b ← readAt bits (idx / 8)
  pure (b &&& (1 <<< UInt8.ofNat (idx % 8)))

end Nx
