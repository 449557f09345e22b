import Verif.Core

/-!
# Model of comparisons of `float` and `double`: `include/virg/nexus/nx_math.h`, `src/nx_statistics.c`

Numbers are their bits in the formats of IEEE 754, with signed zeros, infinities and NaN; there is no arithmetic here.
-/

namespace Nx

/-- A format: the number of bits without the sign, and those of the fraction. -/
structure FpFmt where
  bits : Nat
  frac : Nat
deriving DecidableEq, Repr

def fpDouble : FpFmt := ⟨63, 52⟩
def fpFloat : FpFmt := ⟨31, 23⟩

/-- What the bits mean; a finite number is given in units of the least positive one. -/
inductive FpVal where
  | nan
  | ninf
  | fin (z : Int)
  | pinf
deriving DecidableEq, Repr

/-- The bits without the sign of the infinities: all bits of the exponent. -/
def FpFmt.inf (f : FpFmt) : Nat := (2 ^ (f.bits - f.frac) - 1) * 2 ^ f.frac

/-- The absolute value of finite bits: subnormal numbers have the exponent of the least normal ones. -/
def fpAbs (p mag : Nat) : Nat := if mag / 2 ^ p = 0 then mag else (2 ^ p + mag % 2 ^ p) * 2 ^ (mag / 2 ^ p - 1)

def fpVal (f : FpFmt) (x : BitVec (f.bits + 1)) : FpVal :=
  let mag := x.toNat % 2 ^ f.bits
  let neg := decide (2 ^ f.bits ≤ x.toNat)
  if f.inf < mag then .nan
  else if mag = f.inf then (if neg then .ninf else .pinf)
  else .fin (if neg then -(fpAbs f.frac mag : Int) else fpAbs f.frac mag)

/-- The order of numbers; NaN is not less and not greater than anything. -/
def FpVal.lt : FpVal → FpVal → Bool
  | .ninf, .fin _ | .ninf, .pinf | .fin _, .pinf => true
  | .fin a, .fin b => decide (a < b)
  | _, _ => false

/-- The operator `<`. -/
def fpLt (f : FpFmt) (x y : BitVec (f.bits + 1)) : Bool := (fpVal f x).lt (fpVal f y)

/-- `nx_min_s` and `nx_min_d`, `include/virg/nexus/nx_math.h:61-69`. -/
def fpMin (f : FpFmt) (x y : BitVec (f.bits + 1)) : BitVec (f.bits + 1) := if fpLt f x y then x else y

/-- `nx_max_s` and `nx_max_d`, `include/virg/nexus/nx_math.h:76-84`. -/
def fpMax (f : FpFmt) (x y : BitVec (f.bits + 1)) : BitVec (f.bits + 1) := if fpLt f y x then x else y

/-- `nx_compare_double_incr`, `include/virg/nexus/nx_math.h:86-98`. -/
def compareDouble (d0 d1 : BitVec 64) : Int :=
  if fpLt fpDouble d0 d1 then -1
  else if fpLt fpDouble d1 d0 then 1
  else 0

/-- `DBL_MAX` and `-DBL_MAX`. -/
def dblMax : BitVec 64 := 0x7fefffffffffffff#64
def dblMin : BitVec 64 := 0xffefffffffffffff#64

/-- The loop for the minimum and the maximum, `src/nx_statistics.c:85-95`. -/
def dblRangeLoop : List (BitVec 64) → BitVec 64 → BitVec 64 → BitVec 64 × BitVec 64
  | [], mn, mx => (mn, mx)
  | x :: xs, mn, mx => dblRangeLoop xs (if fpLt fpDouble x mn then x else mn) (if fpLt fpDouble mx x then x else mx)

/-- `min` and `max` of `nx_dstatistics_1d`, `src/nx_statistics.c:37-95`. -/
def dblRange : List (BitVec 64) → BitVec 64 × BitVec 64
  | [] => (0#64, 0#64)
  | [x] => (x, x)
  | xs => dblRangeLoop xs dblMax dblMin

end Nx
