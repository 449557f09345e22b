import Verif.Core

/-!
# Specification of SHA-256, written from FIPS 180-4

Independent of the model: message schedule and rounds are recursive functions on
the round number, the constants are computed from primes.
-/

namespace Nx.Fips

/-- Largest `r < 2^40` with `r^e ≤ n`, bit by bit from the top. -/
def iroot (e n : Nat) : Nat :=
  (List.range 40).foldl (fun r i => if (r + 2 ^ (39 - i)) ^ e ≤ n then r + 2 ^ (39 - i) else r) 0

/-- Primality by trial division. -/
def isPrime (n : Nat) : Bool := 2 ≤ n && (List.range n).all (fun d => d < 2 || n % d != 0)

/-- The first 64 primes are the primes below 312. -/
def primes : List Nat := (List.range 312).filter isPrime

/-- "The first thirty-two bits of the fractional parts of the cube roots of the
first sixty-four prime numbers" (FIPS 180-4, 4.2.2):
`floor (cbrt p * 2^32) mod 2^32`. -/
def K : List (BitVec 32) := primes.map (fun p => BitVec.ofNat 32 (iroot 3 (p * 2 ^ 96)))

/-- "The first thirty-two bits of the fractional parts of the square roots of the
first eight prime numbers" (FIPS 180-4, 5.3.3). -/
def H0 : List (BitVec 32) := (primes.take 8).map (fun p => BitVec.ofNat 32 (iroot 2 (p * 2 ^ 64)))

/-- Big-endian value of a byte string. -/
def be (s : Bytes) : Nat := s.foldl (fun v b => v * 256 + b.toNat) 0

/-- The `n` big-endian bytes of a number. -/
def toBe (n v : Nat) : Bytes := (List.range n).map (fun i => UInt8.ofNat (v / 256 ^ (n - 1 - i)))

/-- Padding (FIPS 180-4, 5.1.1, for messages of whole bytes): the bit 1, then
the least number of zero bits making the length 448 modulo 512, then the
bit length in 64 bits. -/
def pad (msg : Bytes) : Bytes :=
  msg ++ [0x80] ++ List.replicate ((119 - msg.length % 64) % 64) 0 ++ toBe 8 (8 * msg.length)

/-- Cutting into 512-bit blocks (FIPS 180-4, 5.2.1). -/
def blocks (s : Bytes) : List Bytes :=
  if s = [] then [] else s.take 64 :: blocks (s.drop 64)
termination_by s.length
decreasing_by
  rename_i h
  have := List.length_pos_iff.2 h
  simp; omega

/-- FIPS 180-4, 4.1.2. -/
def Ch (x y z : BitVec 32) : BitVec 32 := (x &&& y) ^^^ (~~~x &&& z)
def Maj (x y z : BitVec 32) : BitVec 32 := (x &&& y) ^^^ (x &&& z) ^^^ (y &&& z)
def Sigma0 (x : BitVec 32) : BitVec 32 := x.rotateRight 2 ^^^ x.rotateRight 13 ^^^ x.rotateRight 22
def Sigma1 (x : BitVec 32) : BitVec 32 := x.rotateRight 6 ^^^ x.rotateRight 11 ^^^ x.rotateRight 25
def sigma0 (x : BitVec 32) : BitVec 32 := x.rotateRight 7 ^^^ x.rotateRight 18 ^^^ (x >>> 3)
def sigma1 (x : BitVec 32) : BitVec 32 := x.rotateRight 17 ^^^ x.rotateRight 19 ^^^ (x >>> 10)

/-- Message schedule (FIPS 180-4, 6.2.2 step 1). -/
def W (block : Bytes) (t : Nat) : BitVec 32 :=
  if t < 16 then BitVec.ofNat 32 (be ((block.drop (4 * t)).take 4))
  else sigma1 (W block (t - 2)) + W block (t - 7) + sigma0 (W block (t - 15)) + W block (t - 16)

/-- The eight working variables, in the order a, b, c, d, e, f, g, h. -/
abbrev State := BitVec 32 × BitVec 32 × BitVec 32 × BitVec 32 ×
  BitVec 32 × BitVec 32 × BitVec 32 × BitVec 32

/-- One round (FIPS 180-4, 6.2.2 step 3). -/
def round (k w : BitVec 32) : State → State
  | (a, b, c, d, e, f, g, h) =>
    let T1 := h + Sigma1 e + Ch e f g + k + w
    let T2 := Sigma0 a + Maj a b c
    (T1 + T2, a, b, c, d + T1, e, f, g)

/-- The working variables after `t` rounds. -/
def rounds (block : Bytes) (s : State) : Nat → State
  | 0 => s
  | t + 1 => round (K.getD t 0) (W block t) (rounds block s t)

/-- Step 4: the next intermediate hash value. -/
def compress (s : State) (block : Bytes) : State :=
  match s, rounds block s 64 with
  | (a, b, c, d, e, f, g, h), (a', b', c', d', e', f', g', h') =>
    (a + a', b + b', c + c', d + d', e + e', f + f', g + g', h + h')

/-- The initial hash value as a state. -/
def init : State :=
  (H0.getD 0 0, H0.getD 1 0, H0.getD 2 0, H0.getD 3 0,
   H0.getD 4 0, H0.getD 5 0, H0.getD 6 0, H0.getD 7 0)

/-- The digest of a byte message. -/
def sha256 (msg : Bytes) : Bytes :=
  match (blocks (pad msg)).foldl compress init with
  | (a, b, c, d, e, f, g, h) => [a, b, c, d, e, f, g, h].flatMap (fun x => toBe 4 x.toNat)

end Nx.Fips
