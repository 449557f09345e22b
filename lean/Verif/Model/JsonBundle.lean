import Verif.Model.JsonHeap
import Verif.Model.Keypoint
import Verif.Model.Options
import Verif.Model.StringArray

/-!
# Model of `src/nx_json_bundle.c`

Nodes live in the heap of `Verif/Model/JsonHeap.lean`. A C string is given by its
bytes without the terminating zero, a `char *` that may be NULL by an `Option`.
Formatting and parsing of floating point numbers (`%e`, `atof`) are parameters; a
`float` is its 32-bit pattern. Arrays returned by the functions are lists; the length
of an array is an `int` and does not overflow.
-/

namespace Nx

/-- `nx_json_node_new_string/integer/fpnumber`, `src/nx_json_tree.c:149-180` with
`nx_strdup`, `src/nx_string.c:38-48`, which asserts that the text is not NULL: the new
heap and the new node. -/
def jbVariable (H : JHeap) (type : JNT) (text : Option Bytes) : Res (JHeap × Nat) :=
  match text with
  | none => .fatal
  | some s => .ok (jhNew H type (some (s.takeWhile (· ≠ 0))), H.length)

/-- `nx_json_bundle_bool`, `src/nx_json_bundle.c:32-38`. -/
def bundleBool (H : JHeap) (b : Bool) : Res (JHeap × Nat) :=
  .ok (jhNew H (if b then jsonNewTrue.type else jsonNewFalse.type) none, H.length)

/-- `nx_json_bundle_char`, `src/nx_json_bundle.c:40-44`. -/
def bundleChar (H : JHeap) (c : Byte) : Res (JHeap × Nat) := jbVariable H .string (some [c])

/-- `nx_json_bundle_int`, `src/nx_json_bundle.c:51-57`. -/
def bundleInt (H : JHeap) (v : Int) : Res (JHeap × Nat) := jbVariable H .integer (some (intText v))

/-- `nx_json_bundle_uchar`, `src/nx_json_bundle.c:46-49`. -/
def bundleUchar (H : JHeap) (v : Byte) : Res (JHeap × Nat) := bundleInt H v.toNat

/-- `nx_json_bundle_size_t`, `src/nx_json_bundle.c:59-65`. The conversion `%zd` prints
the argument as the signed type of the same width (as glibc does for every value). -/
def bundleSize (H : JHeap) (z : BitVec 64) : Res (JHeap × Nat) :=
  jbVariable H .integer (some (intText z.toInt))

/-- `nx_json_bundle_float/double`, `src/nx_json_bundle.c:67-78`, `fmtE` is the text
`%e` makes of the value. -/
def bundleFp (fmtE : BitVec 32 → Bytes) (H : JHeap) (x : BitVec 32) : Res (JHeap × Nat) :=
  jbVariable H .fpnumber (some (fmtE x))

/-- `nx_json_bundle_string`, `src/nx_json_bundle.c:80-83`. -/
def bundleString (H : JHeap) (s : Option Bytes) : Res (JHeap × Nat) := jbVariable H .string s

/-- The loop of the functions that bundle arrays, `src/nx_json_bundle.c:88-89`,
`96-97`, `112-113`, `137-138`. -/
def bundleLoop {α : Type} (one : JHeap → α → Res (JHeap × Nat)) (H : JHeap) (a : Nat) : List α → Res JHeap
  | [] => .ok H
  | x :: xs => do
    let r ← one H x
    let H ← jhArrayAdd r.1 a r.2
    bundleLoop one H a xs

/-- `nx_json_bundle_int_array` and its siblings, `src/nx_json_bundle.c:85-115`,
`134-140`. -/
def bundleArray {α : Type} (one : JHeap → α → Res (JHeap × Nat)) (H : JHeap) (xs : List α) : Res (JHeap × Nat) := do
  let a := H.length
  let H := jhNew H .array none
  let H ← bundleLoop one H a xs
  pure (H, a)

/-- Adding named values to an object one after the other: key, type and text. -/
def bundleMembers (H : JHeap) (o : Nat) : List (Bytes × JNT × Bytes) → Res JHeap
  | [] => .ok H
  | (name, type, text) :: ms => do
    let r ← jbVariable H type (some text)
    let H ← jhObjectAdd r.1 o name r.2
    bundleMembers H o ms

/-- The members of a bundled keypoint, `src/nx_json_bundle.c:120-129`; the 64-bit `id`
is converted to `int`. -/
def keypointMembers (fmtE : BitVec 32 → Bytes) (k : Keypoint) : List (Bytes × JNT × Bytes) :=
  [([120], .integer, intText k.x.toInt),
   ([121], .integer, intText k.y.toInt),
   ([120, 115], .fpnumber, fmtE k.xs),
   ([121, 115], .fpnumber, fmtE k.ys),
   ([108, 101, 118, 101, 108], .integer, intText k.level.toInt),
   ([115, 99, 97, 108, 101], .fpnumber, fmtE k.scale),
   ([115, 105, 103, 109, 97], .fpnumber, fmtE k.sigma),
   ([115, 99, 111, 114, 101], .fpnumber, fmtE k.score),
   ([111, 114, 105], .fpnumber, fmtE k.ori),
   ([105, 100], .integer, intText (k.id.setWidth 32).toInt)]

/-- `nx_json_bundle_keypoint`, `src/nx_json_bundle.c:117-132`. -/
def bundleKeypoint (fmtE : BitVec 32 → Bytes) (H : JHeap) (k : Keypoint) : Res (JHeap × Nat) := do
  let o := H.length
  let H := jhNew H .object none
  let H ← bundleMembers H o (keypointMembers fmtE k)
  pure (H, o)

/-- The text of a node that passes the assertions at the start of the functions that
unbundle values, `src/nx_json_bundle.c:145-146` for instance. -/
def unbundleText (H : JHeap) (n mask : Nat) : Res (Option Bytes) := do
  let N ← readAt H n
  if N.type.bit &&& mask = 0 then .fatal else pure N.text

/-- Using a text that is NULL is undefined. -/
def needText : Option Bytes → Res Bytes
  | some s => .ok s
  | none => .ub

/-- `NX_JNT_BOOL`, `include/virg/nexus/nx_json_tree.h:46`. -/
def maskBool : Nat := 96
/-- `NX_JNT_NUMBER`, `include/virg/nexus/nx_json_tree.h:45`. -/
def maskNumber : Nat := 24

/-- `nx_json_unbundle_bool`, `src/nx_json_bundle.c:143-149`. -/
def unbundleBool (H : JHeap) (n : Nat) : Res Bool := do
  let N ← readAt H n
  if N.type.bit &&& maskBool = 0 then .fatal else pure (decide (N.type = .tru))

/-- `nx_json_unbundle_char`, `src/nx_json_bundle.c:151-157`; the byte behind the text
is 0. -/
def unbundleChar (H : JHeap) (n : Nat) : Res Byte := do
  let t ← unbundleText H n JNT.string.bit
  let t ← needText t
  readAt (t ++ [0]) 0

/-- `nx_json_unbundle_int`, `src/nx_json_bundle.c:169-174`. -/
def unbundleInt (H : JHeap) (n : Nat) : Res Int := do
  let t ← unbundleText H n JNT.integer.bit
  let t ← needText t
  atoi t

/-- `nx_json_unbundle_uchar`, `src/nx_json_bundle.c:159-167`. -/
def unbundleUchar (H : JHeap) (n : Nat) : Res Byte := do
  let i ← unbundleInt H n
  pure (UInt8.ofNat (if i < 0 then 0 else if i > 255 then 255 else i).toNat)

/-- `nx_json_unbundle_size_t`, `src/nx_json_bundle.c:176-182`. -/
def unbundleSize (H : JHeap) (n : Nat) : Res (BitVec 64) := do
  let t ← unbundleText H n JNT.integer.bit
  let t ← needText t
  let v ← atol t
  pure (BitVec.ofInt 64 v)

/-- `nx_json_unbundle_float/double`, `src/nx_json_bundle.c:184-198`, for a result that
is stored in a `float`; `atof` is the value of a text converted to `float`. -/
def unbundleFp (atof : Bytes → BitVec 32) (H : JHeap) (n : Nat) : Res (BitVec 32) := do
  let t ← unbundleText H n maskNumber
  let t ← needText t
  pure (atof t)

/-- `nx_json_unbundle_string`, `src/nx_json_bundle.c:200-206`: `nx_strdup` asserts a
text. -/
def unbundleString (H : JHeap) (n : Nat) : Res Bytes := do
  let t ← unbundleText H n JNT.string.bit
  match t with
  | none => .fatal
  | some s => pure s

/-- `nx_json_array_fget`/`nx_json_object_fget`, `src/nx_json_tree.c:281-299`: no result
is a fatal error. -/
def fget (r : Res (Option Nat)) : Res Nat := do
  match ← r with
  | none => .fatal
  | some n => pure n

/-- The loop of the functions that unbundle arrays, `src/nx_json_bundle.c:215-216`,
from position `i` with `k` positions left. -/
def unbundleFrom {α : Type} (one : Nat → Res α) (H : JHeap) (a mask i : Nat) : Nat → Res (List α)
  | 0 => .ok []
  | k + 1 => do
    let n ← fget (jhArrayGet H a i mask)
    let x ← one n
    let xs ← unbundleFrom one H a mask (i + 1) k
    pure (x :: xs)

/-- `nx_json_unbundle_int_array` and its siblings, `src/nx_json_bundle.c:208-254`,
`290-301`. -/
def unbundleArray {α : Type} (one : JHeap → Nat → Res α) (mask : Nat) (H : JHeap) (a : Nat) : Res (List α) := do
  let A ← readAt H a
  if A.type.bit &&& JNT.array.bit = 0 then .fatal
  else do
    let n ← jhNChildren H a
    unbundleFrom (one H) H a mask 0 n

/-- The loop of `nx_json_unbundle_as_string_array`, `src/nx_json_bundle.c:263-266`,
from position `i` with `k` positions left. -/
def unbundleSaLoop (H : JHeap) (a : Nat) (h : Heap) (sa : SArr) (i : Nat) : Nat → Res (Heap × SArr)
  | 0 => .ok (h, sa)
  | k + 1 => do
    let n ← fget (jhArrayGet H a i JNT.string.bit)
    let N ← readAt H n
    let r ← saSet h sa i (match N.text with | some s => .ext s | none => .null)
    unbundleSaLoop H a r.1 r.2 (i + 1) k

/-- `nx_json_unbundle_as_string_array`, `src/nx_json_bundle.c:256-268`; `h` is the heap
of strings (empty before the call, without loss of generality for the result). -/
def unbundleAsStringArray (H : JHeap) (a : Nat) (h : Heap) : Res (Heap × SArr) := do
  let A ← readAt H a
  if A.type.bit &&& JNT.array.bit = 0 then .fatal
  else do
    let n ← jhNChildren H a
    let r ← saResize h saAlloc n
    unbundleSaLoop H a r.1 r.2 0 n

/-- A member of a keypoint that is an `int`. -/
def unbundleIntMember (H : JHeap) (o : Nat) (name : Bytes) : Res Int := do
  let n ← fget (jhObjectGet H o name JNT.integer.bit)
  unbundleInt H n

/-- A member of a keypoint that is a floating point number. -/
def unbundleFpMember (atof : Bytes → BitVec 32) (H : JHeap) (o : Nat) (name : Bytes) : Res (BitVec 32) := do
  let n ← fget (jhObjectGet H o name JNT.fpnumber.bit)
  unbundleFp atof H n

/-- `nx_json_unbundle_keypoint`, `src/nx_json_bundle.c:270-288`; the `int` read for
`id` is converted to `uint64_t`. -/
def unbundleKeypoint (atof : Bytes → BitVec 32) (H : JHeap) (o : Nat) : Res Keypoint := do
  let O ← readAt H o
  if O.type.bit &&& JNT.object.bit = 0 then .fatal
  else do
    let x ← unbundleIntMember H o [120]
    let y ← unbundleIntMember H o [121]
    let xs ← unbundleFpMember atof H o [120, 115]
    let ys ← unbundleFpMember atof H o [121, 115]
    let level ← unbundleIntMember H o [108, 101, 118, 101, 108]
    let scale ← unbundleFpMember atof H o [115, 99, 97, 108, 101]
    let sigma ← unbundleFpMember atof H o [115, 105, 103, 109, 97]
    let score ← unbundleFpMember atof H o [115, 99, 111, 114, 101]
    let ori ← unbundleFpMember atof H o [111, 114, 105]
    let id ← unbundleIntMember H o [105, 100]
    pure {
      x := BitVec.ofInt 32 x
      y := BitVec.ofInt 32 y
      xs := xs
      ys := ys
      level := BitVec.ofInt 32 level
      scale := scale
      sigma := sigma
      score := score
      ori := ori
      id := BitVec.ofInt 64 id }

end Nx
