import Verif.Model.Stream

/-!
# Model of keypoint serialization, `src/nx_keypoint.c:30-88`

`int` and `float` fields are their 4-byte object representation, as 32-bit patterns;
`uint64_t` a 64-bit pattern.
-/

namespace Nx

/-- `struct NXKeypoint`, `include/virg/nexus/nx_keypoint.h:36-52`. -/
structure Keypoint where
  x : BitVec 32
  y : BitVec 32
  xs : BitVec 32
  ys : BitVec 32
  level : BitVec 32
  scale : BitVec 32
  sigma : BitVec 32
  score : BitVec 32
  ori : BitVec 32
  id : BitVec 64
deriving DecidableEq, Repr

/-- Bytes written by `WRITE_FIELD` for a 4-byte field, `src/nx_keypoint.c:30-33`. -/
def field32 (b : BitVec 32) : Bytes := leBytes 4 b.toNat

/-- Bytes written by `WRITE_FIELD` for an 8-byte field. -/
def field64 (b : BitVec 64) : Bytes := leBytes 8 b.toNat

/-- The bytes one iteration of `nx_keypoint_write` writes, `src/nx_keypoint.c:43-52`. -/
def keypointWrite1 (k : Keypoint) : Bytes :=
  field32 k.x ++ field32 k.y ++ field32 k.xs ++ field32 k.ys ++ field32 k.level ++ field32 k.scale
    ++ field32 k.sigma ++ field32 k.score ++ field32 k.ori ++ field64 k.id

/-- `nx_keypoint_write`, `src/nx_keypoint.c:40-56`: the bytes written (device errors
are not modelled, so that the return value is `n`). -/
def keypointWrite : List Keypoint → Bytes
  | [] => []
  | k :: ks => keypointWrite1 k ++ keypointWrite ks

/-- The fields of an element of the array, in the order they are read. -/
inductive KeyField
  | x | y | xs | ys | level | scale | sigma | score | ori

/-- `READ_FIELD(key, i, f, stream)`, `src/nx_keypoint.c:35-38`, storing a 4-byte field. -/
def KeyField.store (f : KeyField) (k : Keypoint) (b : BitVec 32) : Keypoint :=
  match f with
  | .x => { k with x := b }
  | .y => { k with y := b }
  | .xs => { k with xs := b }
  | .ys => { k with ys := b }
  | .level => { k with level := b }
  | .scale => { k with scale := b }
  | .sigma => { k with sigma := b }
  | .score => { k with score := b }
  | .ori => { k with ori := b }

/-- The 4-byte fields in the order of `src/nx_keypoint.c:61-69`. -/
def keyFields : List KeyField := [.x, .y, .xs, .ys, .level, .scale, .sigma, .score, .ori]

/-- Reading 4-byte fields; the flag tells whether all of them were available. A
field cut by the end of the stream is not modelled as partially stored. -/
def readFields : List KeyField → Keypoint → Bytes → Bool × Keypoint × Bytes
  | [], k, st => (true, k, st)
  | f :: fs, k, st =>
    match fread1 4 st with
    | (none, st) => (false, k, st)
    | (some b, st) => readFields fs (f.store k (BitVec.ofNat 32 (leVal b))) st

/-- The body of the loop of `nx_keypoint_read`, `src/nx_keypoint.c:61-70`: whether
the keypoint was complete, the element, and the rest of the stream. -/
def keypointRead1 (k : Keypoint) (st : Bytes) : Bool × Keypoint × Bytes :=
  match readFields keyFields k st with
  | (false, k, st) => (false, k, st)
  | (true, k, st) =>
    match fread1 8 st with
    | (none, st) => (false, k, st)
    | (some b, st) => (true, { k with id := BitVec.ofNat 64 (leVal b) }, st)

/-- The loop of `nx_keypoint_read`, `src/nx_keypoint.c:60-71`, from element `i` on:
the return value, the array and the rest of the stream. -/
def keypointReadLoop (i n : Nat) (keys : List Keypoint) (st : Bytes) : Res (Nat × List Keypoint × Bytes) :=
  if i < n then do
    let k ← readAt keys i
    let r := keypointRead1 k st
    let keys ← writeAt keys i r.2.1
    if r.1 then keypointReadLoop (i + 1) n keys r.2.2 else pure (i, keys, r.2.2)
  else pure (n, keys, st)
termination_by n - i

/-- `nx_keypoint_read`, `src/nx_keypoint.c:58-74`. -/
def keypointRead (n : Nat) (keys : List Keypoint) (st : Bytes) : Res (Nat × List Keypoint × Bytes) :=
  keypointReadLoop 0 n keys st

/-- `nx_keypoint_xread`, `src/nx_keypoint.c:83-88`. -/
def keypointXread (n : Nat) (keys : List Keypoint) (st : Bytes) : Res (List Keypoint × Bytes) := do
  let r ← keypointRead n keys st
  if r.1 = n then pure r.2 else .fatal

end Nx
