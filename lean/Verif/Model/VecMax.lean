import Verif.Core

/-!
# Model of the argmax functions, `include/virg/nexus/nx_vec.h`

A `float` is its 32-bit pattern; only its order is used. The order of IEEE 754
binary32 values is that of their sign-magnitude patterns, NaN is unordered.
-/

namespace Nx

/-- Position of a non-NaN binary32 value in the order; `none` for NaN. -/
def f32Key (b : BitVec 32) : Option Int :=
  let mag := b.toNat % 2147483648
  if mag > 2139095040 then none
  else if b.toNat < 2147483648 then some mag else some (-mag)

/-- `a > b` on floats. -/
def f32Gt (a b : BitVec 32) : Bool :=
  match f32Key a, f32Key b with
  | some x, some y => x > y
  | _, _ => false

/-- `-FLT_MAX`. -/
def negFltMax : BitVec 32 := 0xFF7FFFFF#32

/-- The loop `for (int i = 0; i < n; ++i)` of the argmax functions from index `i`
on, with the current `max_idx` and `max_val`. -/
def argmaxLoop {α : Type} (gt : α → α → Bool) (i : Nat) (maxIdx : Int) (maxVal : α) : List α → Int
  | [] => maxIdx
  | x :: v => if gt x maxVal then argmaxLoop gt (i + 1) i x v else argmaxLoop gt (i + 1) maxIdx maxVal v

/-- `nx_ivec_max_idx`, `include/virg/nexus/nx_vec.h:219-233`. -/
def ivecMaxIdx (v : List Int) : Int := argmaxLoop (fun a b => a > b) 0 (-1) (-2147483648) v

/-- `nx_svec_max_idx`, `include/virg/nexus/nx_vec.h:166-180`. -/
def svecMaxIdx (v : List (BitVec 32)) : Int := argmaxLoop f32Gt 0 (-1) negFltMax v

/-- The loop of `nx_svec_max_val`, `include/virg/nexus/nx_vec.h:187-193`. -/
def maxValLoop (maxVal : BitVec 32) : List (BitVec 32) → BitVec 32
  | [] => maxVal
  | x :: v => if f32Gt x maxVal then maxValLoop x v else maxValLoop maxVal v

/-- `nx_svec_max_val`, `include/virg/nexus/nx_vec.h:182-194`. -/
def svecMaxVal (v : List (BitVec 32)) : BitVec 32 := maxValLoop negFltMax v

end Nx
