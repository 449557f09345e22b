import Mathlib.Data.Int.Log
import Mathlib.Data.Rat.Floor
import Verif.Core

/-!
# Model of the rounding of IEEE 754 arithmetic

The results of `+`, `-`, `*`, `/` and of conversions to `float` and `double` are the exact ones, rounded to the nearest number of the
format, the one with an even last digit of two. Overflow is not part of this model: numbers of the format have no largest exponent
here. Used for `float` by `src/nx_image_pyr_builder.c:211-214` and `include/virg/nexus/nx_keypoint.h:53-71`, in `Model/KeyPos.lean`.
-/

namespace Nx

/-- The nearest integer, the even one of two. -/
def roundEven (q : Rat) : Int :=
  let f := ⌊q⌋
  if q - f < 1 / 2 then f
  else if 1 / 2 < q - f then f + 1
  else if f % 2 = 0 then f else f + 1

/-- The exponent of the last digit of a number near `q` with `p` binary digits, at least `emin`. -/
def lastExp (p : Nat) (emin : Int) (q : Rat) : Int := max (Int.log 2 |q| + 1 - p) emin

/-- Rounding to `p` binary digits, the last one not below `2 ^ emin`. -/
def fround (p : Nat) (emin : Int) (q : Rat) : Rat :=
  roundEven (q / 2 ^ lastExp p emin q) * 2 ^ lastExp p emin q

/-- Rounding to `float`: IEEE 754 binary32. -/
def f32 : Rat → Rat := fround 24 (-149)

/-- Rounding to `double`: IEEE 754 binary64. -/
def f64 : Rat → Rat := fround 53 (-1074)

end Nx
