import Verif.Core

/-!
# Byte streams and object representations

A `FILE *` open for reading is the list of bytes not yet read; a `FILE *` open
for writing is the list of bytes written so far. Device errors are not modelled:
`fwrite` always writes everything, `fread` is short only at end of stream.
-/

namespace Nx

/-- Object representation of an unsigned integer of `k` bytes (little endian
machine), as written by `fwrite(&x, sizeof(x), 1, stream)`. -/
def leBytes : (k : Nat) → (v : Nat) → Bytes
  | 0, _ => []
  | k + 1, v => UInt8.ofNat (v % 256) :: leBytes k (v / 256)

/-- Value of an object representation (little endian). -/
def leVal : Bytes → Nat
  | [] => 0
  | b :: bs => b.toNat + 256 * leVal bs

/-- Representation of an `int32_t`/`int` value in two's complement. -/
def leInt32 (v : Int) : Bytes := leBytes 4 (v % 4294967296).toNat

/-- Value of a 4-byte two's complement representation. -/
def intOfLe32 (b : Bytes) : Int :=
  let v := leVal b
  if v < 2147483648 then (v : Int) else (v : Int) - 4294967296

/-- `fread(p, k, 1, stream)`: one item of `k` bytes. `none` if the stream ends
before (then it is exhausted). -/
def fread1 (k : Nat) (st : Bytes) : Option Bytes × Bytes :=
  if k ≤ st.length then (some (st.take k), st.drop k) else (none, [])

/-- `fread(p, 1, n, stream)`: at most `n` bytes. Returns the bytes read. -/
def freadBytes (n : Nat) (st : Bytes) : Bytes × Bytes := (st.take n, st.drop n)

theorem leBytes_length (k v : Nat) : (leBytes k v).length = k := by
  induction k generalizing v with
  | zero => rfl
  | succ k ih => simp [leBytes, ih]

theorem leVal_leBytes (k v : Nat) : leVal (leBytes k v) = v % 256 ^ k := by
  induction k generalizing v with
  | zero => simp [leBytes, leVal, Nat.mod_one]
  | succ k ih =>
    have h : (UInt8.ofNat (v % 256)).toNat = v % 256 := by
      simp [UInt8.toNat_ofNat']
    rw [leBytes, leVal, ih, h, Nat.pow_succ', Nat.mod_mul]

theorem leVal_leBytes_of_lt {k v : Nat} (h : v < 256 ^ k) : leVal (leBytes k v) = v := by
  rw [leVal_leBytes, Nat.mod_eq_of_lt h]

theorem leVal_lt (b : Bytes) : leVal b < 256 ^ b.length := by
  induction b with
  | nil => simp [leVal]
  | cons x b ih =>
    have := x.toNat_lt
    simp only [leVal, List.length_cons, Nat.pow_succ']
    omega

theorem intOfLe32_leInt32 {v : Int} (h1 : -2147483648 ≤ v) (h2 : v < 2147483648) :
    intOfLe32 (leInt32 v) = v := by
  unfold intOfLe32 leInt32
  rw [leVal_leBytes_of_lt (by omega)]
  simp only
  split <;> omega

theorem leInt32_length (v : Int) : (leInt32 v).length = 4 := leBytes_length _ _

theorem fread1_append {k : Nat} {a : Bytes} (b : Bytes) (h : a.length = k) :
    fread1 k (a ++ b) = (some a, b) := by
  subst h
  simp [fread1]

theorem fread1_short {k : Nat} {a : Bytes} (h : a.length < k) :
    fread1 k a = (none, []) := by
  unfold fread1
  rw [if_neg (by omega)]

end Nx
