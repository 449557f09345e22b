import Verif.Model.BitOps
import Verif.Model.MemncpyMulti

/-!
# Model of `src/nx_hash_sha256.c`
-/

namespace Nx

/-- The constant table `K`, `src/nx_hash_sha256.c:43-51`. -/
def shaK : List (BitVec 32) := [
  0x428a2f98, 0x71374491, 0xb5c0fbcf, 0xe9b5dba5, 0x3956c25b, 0x59f111f1, 0x923f82a4, 0xab1c5ed5,
  0xd807aa98, 0x12835b01, 0x243185be, 0x550c7dc3, 0x72be5d74, 0x80deb1fe, 0x9bdc06a7, 0xc19bf174,
  0xe49b69c1, 0xefbe4786, 0x0fc19dc6, 0x240ca1cc, 0x2de92c6f, 0x4a7484aa, 0x5cb0a9dc, 0x76f988da,
  0x983e5152, 0xa831c66d, 0xb00327c8, 0xbf597fc7, 0xc6e00bf3, 0xd5a79147, 0x06ca6351, 0x14292967,
  0x27b70a85, 0x2e1b2138, 0x4d2c6dfc, 0x53380d13, 0x650a7354, 0x766a0abb, 0x81c2c92e, 0x92722c85,
  0xa2bfe8a1, 0xa81a664b, 0xc24b8b70, 0xc76c51a3, 0xd192e819, 0xd6990624, 0xf40e3585, 0x106aa070,
  0x19a4c116, 0x1e376c08, 0x2748774c, 0x34b0bcb5, 0x391c0cb3, 0x4ed8aa4a, 0x5b9cca4f, 0x682e6ff3,
  0x748f82ee, 0x78a5636f, 0x84c87814, 0x8cc70208, 0x90befffa, 0xa4506ceb, 0xbef9a3f7, 0xc67178f2]

/-- The eight words `H[0..7]` (and the working variables `a..h`). -/
structure Words8 where
  a : BitVec 32
  b : BitVec 32
  c : BitVec 32
  d : BitVec 32
  e : BitVec 32
  f : BitVec 32
  g : BitVec 32
  h : BitVec 32
deriving DecidableEq

/-- The initial hash value, `src/nx_hash_sha256.c:105-113`. -/
def shaInit : Words8 :=
  ⟨0x6a09e667, 0xbb67ae85, 0x3c6ef372, 0xa54ff53a, 0x510e527f, 0x9b05688c, 0x1f83d9ab, 0x5be0cd19⟩

/-- `NX_SHA256_CH`, `src/nx_hash_sha256.c:36`. -/
def shaCh (x y z : BitVec 32) : BitVec 32 := (x &&& y) ^^^ (~~~x &&& z)

/-- `NX_SHA256_MAJ`, `src/nx_hash_sha256.c:37`. -/
def shaMaj (x y z : BitVec 32) : BitVec 32 := (x &&& y) ^^^ (x &&& z) ^^^ (y &&& z)

/-- `NX_SHA256_SIGMA0`, `src/nx_hash_sha256.c:38`. -/
def shaSigma0 (x : BitVec 32) : Res (BitVec 32) := do
  let p ← rotr32 x 2
  let q ← rotr32 x 13
  let r ← rotr32 x 22
  pure (p ^^^ q ^^^ r)

/-- `NX_SHA256_SIGMA1`, `src/nx_hash_sha256.c:39`. -/
def shaSigma1 (x : BitVec 32) : Res (BitVec 32) := do
  let p ← rotr32 x 6
  let q ← rotr32 x 11
  let r ← rotr32 x 25
  pure (p ^^^ q ^^^ r)

/-- `nx_compose_big_endian32(block + i)` with the four reads made explicit. -/
def composeAt (block : Bytes) (i : Nat) : Res (BitVec 32) := do
  let b0 ← readAt block i
  let b1 ← readAt block (i + 1)
  let b2 ← readAt block (i + 2)
  let b3 ← readAt block (i + 3)
  pure (composeBE32 b0 b1 b2 b3)

/-- Filling `W[0..15]`, `src/nx_hash_sha256.c:63-65`; `W` holds the elements
stored so far (index `i` is its length, so storing is appending). -/
def shaFill (block : Bytes) (i : Nat) (W : List (BitVec 32)) : Res (List (BitVec 32)) :=
  if i < 16 then do
    let w ← composeAt block (i * 4)
    shaFill block (i + 1) (W ++ [w])
  else pure W
termination_by 16 - i

/-- Extending `W` to 64 words, `src/nx_hash_sha256.c:66-71`. -/
def shaExtend (i : Nat) (W : List (BitVec 32)) : Res (List (BitVec 32)) :=
  if i < 64 then do
    let w2 ← readAt W (i - 2)
    let w7 ← readAt W (i - 7)
    let w15 ← readAt W (i - 15)
    let w16 ← readAt W (i - 16)
    let p ← rotr32 w2 17
    let q ← rotr32 w2 19
    let u ← rotr32 w15 7
    let v ← rotr32 w15 18
    shaExtend (i + 1) (W ++ [(p ^^^ q ^^^ (w2 >>> 10)) + w7 + (u ^^^ v ^^^ (w15 >>> 3)) + w16])
  else pure W
termination_by 64 - i

/-- The 64 rounds, `src/nx_hash_sha256.c:73-84`. -/
def shaRounds (W : List (BitVec 32)) (i : Nat) (s : Words8) : Res Words8 :=
  if i < 64 then do
    let k ← readAt shaK i
    let w ← readAt W i
    let s1 ← shaSigma1 s.e
    let s0 ← shaSigma0 s.a
    let t1 := s.h + s1 + shaCh s.e s.f s.g + k + w
    let t2 := s0 + shaMaj s.a s.b s.c
    shaRounds W (i + 1) ⟨t1 + t2, s.a, s.b, s.c, s.d + t1, s.e, s.f, s.g⟩
  else pure s
termination_by 64 - i

/-- `nx_sha256_process_block`, `src/nx_hash_sha256.c:41-94`. -/
def shaProcessBlock (block : Bytes) (H : Words8) : Res Words8 := do
  let W0 ← shaFill block 0 []
  let W ← shaExtend 16 W0
  let s ← shaRounds W 0 H
  pure ⟨H.a + s.a, H.b + s.b, H.c + s.c, H.d + s.d, H.e + s.e, H.f + s.f, H.g + s.g, H.h + s.h⟩

/-- The loop over the blocks holding only message data,
`src/nx_hash_sha256.c:131-139`; `n` iterations are left. -/
def shaBlocks (tail : Option Nat) (msgs : List Bytes) :
    (n so off : Nat) → (block : Bytes) → (H : Words8) → Res (Nat × Nat × Bytes × Words8)
  | 0, so, off, block, H => pure (so, off, block, H)
  | n + 1, so, off, block, H => do
    let (c, so', off') ← memncpyMulti tail msgs 64 so off
    let block' ← writeBlock block 0 c
    if c.length = 64 then do
      let H' ← shaProcessBlock block' H
      shaBlocks tail msgs n so' off' block' H'
    else .fatal

/-- Output of the hash words, `src/nx_hash_sha256.c:176-177`. -/
def shaOutput (H : Words8) : Bytes :=
  splitBE32 H.a ++ splitBE32 H.b ++ splitBE32 H.c ++ splitBE32 H.d ++
  splitBE32 H.e ++ splitBE32 H.f ++ splitBE32 H.g ++ splitBE32 H.h

/-- End of padding when it fits into the current block,
`src/nx_hash_sha256.c:154-158`; `pos` is `block_p - block`. -/
def shaFinishOne (block : Bytes) (H : Words8) (pos k total : Nat) : Res Words8 := do
  let block ← writeBlock block pos (List.replicate k 0)
  let block ← writeBlock block (pos + k) (splitBE64 (BitVec.ofNat 64 (total * 8)))
  shaProcessBlock block H

/-- End of padding when a further block is needed, `src/nx_hash_sha256.c:160-172`. -/
def shaFinishTwo (block : Bytes) (H : Words8) (pos k0 k1 total : Nat) : Res Words8 := do
  let block ← writeBlock block pos (List.replicate k0 0)
  let H ← shaProcessBlock block H
  let block ← writeBlock block 0 (List.replicate k1 0)
  let block ← writeBlock block k1 (splitBE64 (BitVec.ofNat 64 (total * 8)))
  shaProcessBlock block H

/-- `nx_sha256_multi`, `src/nx_hash_sha256.c:101-178`. `block0` is the
indeterminate initial content of the local array `block`; `tail` is the memory
behind `lmsg[n_msg-1]`, see `memncpyMulti`. -/
def sha256Multi (tail : Option Nat) (block0 : Bytes) (msgs : List Bytes) : Res Bytes := do
  let total := (msgs.map List.length).sum % 2 ^ 64
  let nb := total / 64
  let rem := total - nb * 64
  let k := if rem ≤ 55 then 55 - rem else 119 - rem
  let (so, off, block, H) ← shaBlocks tail msgs nb 0 0 block0 shaInit
  let (c, _, _) ← memncpyMulti tail msgs rem so off
  let block ← writeBlock block 0 c
  if c.length = rem then do
    let block ← writeAt block rem 0x80
    let H ← (if rem ≤ 55 then shaFinishOne block H (rem + 1) k total
      else shaFinishTwo block H (rem + 1) (64 - (rem + 1)) (k - (64 - (rem + 1))) total)
    pure (shaOutput H)
  else .fatal

/-- `nx_sha256`, `src/nx_hash_sha256.c:96-99`. -/
def sha256 (tail : Option Nat) (block0 : Bytes) (msg : Bytes) : Res Bytes :=
  sha256Multi tail block0 [msg]

end Nx
