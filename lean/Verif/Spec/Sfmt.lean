import Verif.Model.Sfmt

/-!
# Specification of the random number generator

The recursion of SFMT19937 as published (Saito and Matsumoto, 2006), on 128 bit numbers.
-/

namespace Nx

/-- A 128 bit word as a number, the word `u[0]` is the lowest. -/
def W128.bv (a : W128) : BitVec 128 := a.u3 ++ a.u2 ++ a.u1 ++ a.u0

/-- The four 32 bit words of a number, from the lowest. -/
def lane (x : BitVec 128) (j : Nat) : BitVec 32 := x.extractLsb' (32 * j) 32

/-- The same operation on each of the four 32 bit words. -/
def map32 (f : BitVec 32 → BitVec 32) (x : BitVec 128) : BitVec 128 :=
  f (lane x 3) ++ f (lane x 2) ++ f (lane x 1) ++ f (lane x 0)

/-- The recursion. -/
def sfmtRec (a b c d : BitVec 128) : BitVec 128 :=
  a ^^^ (a <<< 8) ^^^ (map32 (· >>> 11) b &&& 0xbffffff6bffaffffddfecb7fdfffffef#128) ^^^ (c >>> 8) ^^^ map32 (· <<< 18) d

/-- A sequence of the generator. -/
def IsSfmt (w : Nat → BitVec 128) : Prop := ∀ i, w (i + 156) = sfmtRec (w i) (w (i + 122)) (w (i + 154)) (w (i + 155))

/-- The state of the generator is a window of a sequence. -/
def Window (w : Nat → BitVec 128) (p : Nat) (state : List W128) : Prop :=
  state.length = 156 ∧ ∀ i x, state[i]? = some x → x.bv = w (p + i)

/-- The `k`-th 32 bit number of a sequence. -/
def word32 (w : Nat → BitVec 128) (k : Nat) : BitVec 32 := lane (w (k / 4)) (k % 4)

/-- The generator `g` is about to give the `k`-th number of the sequence. -/
def Emits (w : Nat → BitVec 128) (k : Nat) (g : Sfmt) : Prop :=
  g.idx ≤ 624 ∧ ∃ p, Window w p g.state ∧ 4 * p + g.idx = k

/-- The recurrence of Knuth that expands a seed. -/
def knuthSeq (seed : BitVec 32) : Nat → BitVec 32
  | 0 => seed
  | i + 1 => 1812433253#32 * (knuthSeq seed i ^^^ (knuthSeq seed i >>> 30)) + BitVec.ofNat 32 (i + 1)

/-- The number of bits set. -/
def bitCount {n : Nat} (x : BitVec n) : Nat := (List.range n).countP fun i => x.getLsbD i

/-- The period certification of SFMT19937: an odd number of the bits of the parity vector are set in the first word. -/
def Certified (x : BitVec 128) : Prop := bitCount (x &&& 0x13c9e684000000000000000000000001#128) % 2 = 1

end Nx
