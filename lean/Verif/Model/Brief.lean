import Verif.Model.Stream
import Verif.Model.FastThreshold

/-!
# Model of the BRIEF extractor, `src/nx_brief_extractor.c`
-/

namespace Nx

/-- `OCTET_BIT_COUNT_TABLE`, `src/nx_brief_extractor.c:280-313`. -/
def octetBitCountTable : List Nat := [
  0, 1, 1, 2, 1, 2, 2, 3, 1, 2, 2, 3, 2, 3, 3, 4, 1, 2, 2, 3, 2, 3, 3, 4, 2, 3, 3, 4, 3, 4, 4, 5,
  1, 2, 2, 3, 2, 3, 3, 4, 2, 3, 3, 4, 3, 4, 4, 5, 2, 3, 3, 4, 3, 4, 4, 5, 3, 4, 4, 5, 4, 5, 5, 6,
  1, 2, 2, 3, 2, 3, 3, 4, 2, 3, 3, 4, 3, 4, 4, 5, 2, 3, 3, 4, 3, 4, 4, 5, 3, 4, 4, 5, 4, 5, 5, 6,
  2, 3, 3, 4, 3, 4, 4, 5, 3, 4, 4, 5, 4, 5, 5, 6, 3, 4, 4, 5, 4, 5, 5, 6, 4, 5, 5, 6, 5, 6, 6, 7,
  1, 2, 2, 3, 2, 3, 3, 4, 2, 3, 3, 4, 3, 4, 4, 5, 2, 3, 3, 4, 3, 4, 4, 5, 3, 4, 4, 5, 4, 5, 5, 6,
  2, 3, 3, 4, 3, 4, 4, 5, 3, 4, 4, 5, 4, 5, 5, 6, 3, 4, 4, 5, 4, 5, 5, 6, 4, 5, 5, 6, 5, 6, 6, 7,
  2, 3, 3, 4, 3, 4, 4, 5, 3, 4, 4, 5, 4, 5, 5, 6, 3, 4, 4, 5, 4, 5, 5, 6, 4, 5, 5, 6, 5, 6, 6, 7,
  3, 4, 4, 5, 4, 5, 5, 6, 4, 5, 5, 6, 5, 6, 6, 7, 4, 5, 5, 6, 5, 6, 6, 7, 5, 6, 6, 7, 6, 7, 7, 8]

/-- `OCTET_BIT_COUNT_TABLE[desc0[i] ^ desc1[i]]`. -/
def octetDistance (d0 d1 : Bytes) (i : Nat) : Res Nat := do
  let a ← readAt d0 i
  let b ← readAt d1 i
  readAt octetBitCountTable (a ^^^ b).toNat

/-- `dist += ...` on an `int`. -/
def addDist (dist d : Nat) : Res Nat := if dist + d ≤ 2147483647 then .ok (dist + d) else .ub

/-- The body of the first loop, `src/nx_brief_extractor.c:321-328`. -/
def distance8 (d0 d1 : Bytes) (i dist : Nat) : Res Nat := do
  let t0 ← octetDistance d0 d1 i
  let t1 ← octetDistance d0 d1 (i + 1)
  let t2 ← octetDistance d0 d1 (i + 2)
  let t3 ← octetDistance d0 d1 (i + 3)
  let t4 ← octetDistance d0 d1 (i + 4)
  let t5 ← octetDistance d0 d1 (i + 5)
  let t6 ← octetDistance d0 d1 (i + 6)
  let t7 ← octetDistance d0 d1 (i + 7)
  addDist dist (t0 + t1 + t2 + t3 + t4 + t5 + t6 + t7)

/-- The first loop, `src/nx_brief_extractor.c:320-331`: the index and the distance
after it. -/
def distanceLoop8 (n : Nat) (d0 d1 : Bytes) (i dist : Nat) : Res (Nat × Nat) :=
  if (i : Int) < (n : Int) - 7 then do
    let dist ← distance8 d0 d1 i dist
    distanceLoop8 n d0 d1 (i + 8) dist
  else pure (i, dist)
termination_by n - i

/-- The second loop, `src/nx_brief_extractor.c:333-337`. -/
def distanceLoop1 (n : Nat) (d0 d1 : Bytes) (i dist : Nat) : Res Nat :=
  if i < n then do
    let t ← octetDistance d0 d1 i
    let dist ← addDist dist t
    distanceLoop1 n d0 d1 (i + 1) dist
  else pure dist
termination_by n - i

/-- `nx_brief_extractor_descriptor_distance`, `src/nx_brief_extractor.c:315-340`. -/
def descriptorDistance (n : Nat) (d0 d1 : Bytes) : Res Nat := do
  let r ← distanceLoop8 n d0 d1 0 0
  distanceLoop1 n d0 d1 r.1 r.2

/-- `struct NXBriefExtractor`, `include/virg/nexus/nx_brief_extractor.h:40-48`; the
allocation behind `offsets` is a list (`none` for NULL). -/
structure Brief where
  radius : Int
  nOctets : Int
  offsets : Option (List Int)
  /-- x_min, x_max, y_min, y_max -/
  limits : Int × Int × Int × Int
  pyrLevelOffset : Int
deriving DecidableEq, Repr

/-- `nx_brief_extractor_alloc`, `src/nx_brief_extractor.c:41-58`. -/
def briefAlloc : Brief := ⟨0, 0, none, (0, 0, 0, 0), 2⟩

/-- One iteration of the loop of `nx_brief_extractor_update_limits`,
`src/nx_brief_extractor.c:113-129`. -/
def limitStep (l : Int × Int × Int × Int) (x0 y0 x1 y1 : Int) : Int × Int × Int × Int :=
  (minI (minI l.1 x0) x1, maxI (maxI l.2.1 x0) x1, minI (minI l.2.2.1 y0) y1, maxI (maxI l.2.2.2 y0) y1)

/-- The loop of `nx_brief_extractor_update_limits`, `src/nx_brief_extractor.c:111-130`. -/
def limitLoop (offsets : List Int) (length i : Nat) (l : Int × Int × Int × Int) : Res (Int × Int × Int × Int) :=
  if i < length then do
    let x0 ← readAt offsets (4 * i)
    let y0 ← readAt offsets (4 * i + 1)
    let x1 ← readAt offsets (4 * i + 2)
    let y1 ← readAt offsets (4 * i + 3)
    limitLoop offsets length (i + 1) (limitStep l x0 y0 x1 y1)
  else pure l
termination_by length - i

/-- `nx_brief_extractor_update_limits`, `src/nx_brief_extractor.c:104-131`. -/
def briefUpdateLimits (be : Brief) : Res Brief :=
  match be.offsets with
  | none => if be.nOctets * 8 ≤ 0 then .ok { be with limits := (2147483647, -2147483647, 2147483647, -2147483647) } else .ub
  | some o => do
    let l ← limitLoop o (be.nOctets * 8).toNat 0 (2147483647, -2147483647, 2147483647, -2147483647)
    pure { be with limits := l }

/-- `nx_brief_extractor_randomize`, `src/nx_brief_extractor.c:132-173`. The offsets
drawn by the sampler for a number of octets and a radius are arbitrary; `none` means
that the rejection loop does not end (C143), which is
the outcome `ub`. -/
def briefRandomize (rnd : Int → Int → Option (List Int)) (be : Brief) : Res Brief :=
  match be.offsets with
  | none => .fatal
  | some o =>
    match rnd be.nOctets be.radius with
    | none => .ub
    | some drawn => do
      let o ← writeBlock o 0 (drawn.take (be.nOctets * 32).toNat)
      briefUpdateLimits { be with offsets := some o }

/-- Freeing the offsets if they are too few, `src/nx_brief_extractor.c:88-96`; the
contents of a new allocation are unspecified (0 here). -/
def briefReserve (be : Brief) (nOctets : Int) : List Int :=
  let fresh := List.replicate (nOctets * 8 * 4).toNat 0
  if be.nOctets < nOctets then fresh
  else match be.offsets with
    | none => fresh
    | some o => o

/-- `nx_brief_extractor_resize`, `src/nx_brief_extractor.c:82-102`. -/
def briefResize (rnd : Int → Int → Option (List Int)) (be : Brief) (nOctets radius : Int) : Res Brief :=
  if nOctets > 0 then
    if radius > 0 then
      if InI32 (nOctets * 8 * 4) then
        briefRandomize rnd { be with offsets := some (briefReserve be nOctets), nOctets := nOctets, radius := radius }
      else .ub
    else .fatal
  else .fatal

/-- `nx_brief_extractor_write`, `src/nx_brief_extractor.c:342-361`: the bytes written. -/
def briefWrite (be : Brief) : Res Bytes :=
  match be.offsets with
  | none => .ub
  | some o =>
    if (be.nOctets * 32).toNat ≤ o.length then
      .ok (leInt32 be.radius ++ (leInt32 be.nOctets ++ ((o.take (be.nOctets * 32).toNat).flatMap leInt32
        ++ leInt32 be.pyrLevelOffset)))
    else .ub

/-- `fread(p, sizeof(int), n, stream)`: the complete items read and the rest of the
stream. -/
def freadInts : Nat → Bytes → List Int × Bytes
  | 0, st => ([], st)
  | n + 1, st =>
    match fread1 4 st with
    | (none, st) => ([], st)
    | (some b, st) =>
      let r := freadInts n st
      (intOfLe32 b :: r.1, r.2)

/-- Reading the pyramid offset, `src/nx_brief_extractor.c:383-386`. -/
def briefReadPyr (be : Brief) (st : Bytes) : Bool × Brief × Bytes :=
  match fread1 4 st with
  | (none, st) => (false, be, st)
  | (some b, st) => (true, { be with pyrLevelOffset := intOfLe32 b }, st)

/-- What follows reading the items `r` of the offsets, `src/nx_brief_extractor.c:377-386`. -/
def briefReadTail (be : Brief) (o : List Int) (r : List Int × Bytes) : Res (Bool × Brief × Bytes) := do
  let o ← writeBlock o 0 r.1
  if r.1.length = (be.nOctets * 4 * 8).toNat then do
    let be ← briefUpdateLimits { be with offsets := some o }
    pure (briefReadPyr be r.2)
  else pure (false, { be with offsets := some o }, r.2)

/-- Reading the offsets and the pyramid offset, `src/nx_brief_extractor.c:377-386`. -/
def briefReadBody (be : Brief) (st : Bytes) : Res (Bool × Brief × Bytes) :=
  match be.offsets with
  | none => .ub
  | some o => briefReadTail be o (freadInts (be.nOctets * 4 * 8).toNat st)

/-- `nx_brief_extractor_read`, `src/nx_brief_extractor.c:363-387`: whether the result
is `NX_OK`, the extractor and the rest of the stream. The call of
`nx_brief_extractor_resize` passes the radius as the number of octets and vice
versa, as in the code. -/
def briefRead (rnd : Int → Int → Option (List Int)) (be : Brief) (st : Bytes) : Res (Bool × Brief × Bytes) :=
  match fread1 4 st with
  | (none, st) => .ok (false, be, st)
  | (some r, st) =>
    match fread1 4 st with
    | (none, st) => .ok (false, be, st)
    | (some n, st) => do
      let be ← briefResize rnd be (intOfLe32 r) (intOfLe32 n)
      briefReadBody be st

/-- `nx_brief_extractor_check_point_pyr`, `src/nx_brief_extractor.c:175-198`, on a
level that exists. `scale v` is `(int)(v * scale_f)`. -/
def briefCheckPoint (be : Brief) (scale : Int → Int) (width height x y : Int) : Bool :=
  0 ≤ scale (x + be.limits.1) && scale (x + be.limits.2.1) < width &&
  0 ≤ scale (y + be.limits.2.2.1) && scale (y + be.limits.2.2.2) < height

/-- An 8-bit image: `data` is the allocation, `row_stride` in pixels. -/
structure UcImage where
  width : Nat
  height : Nat
  stride : Nat
  data : Bytes
deriving DecidableEq, Repr

/-- `img->data.uc[img->row_stride * y + x]`. -/
def UcImage.get (img : UcImage) (x y : Int) : Res UInt8 :=
  if 0 ≤ img.stride * y + x then readAt img.data (img.stride * y + x).toNat else .ub

/-- One test of `nx_brief_extractor_compute_pyr`, `src/nx_brief_extractor.c:220-231`. -/
def briefTest (offsets : List Int) (scale : Int → Int) (img : UcImage) (x y : Int) (i : Nat) : Res Bool := do
  let ox0 ← readAt offsets (4 * i)
  let oy0 ← readAt offsets (4 * i + 1)
  let ox1 ← readAt offsets (4 * i + 2)
  let oy1 ← readAt offsets (4 * i + 3)
  let i0 ← img.get (scale (x + ox0)) (scale (y + oy0))
  let i1 ← img.get (scale (x + ox1)) (scale (y + oy1))
  pure (i0 > i1)

/-- The loop over the bits of an octet, `src/nx_brief_extractor.c:217-232`, for the
tests from `i` on. -/
def briefOctet (offsets : List Int) (scale : Int → Int) (img : UcImage) (x y : Int) :
    Nat → Nat → UInt8 → Res UInt8
  | 0, _, d => .ok d
  | k + 1, i, d => do
    let t ← briefTest offsets scale img x y i
    let d := d <<< 1
    briefOctet offsets scale img x y k (i + 1) (if t then d ||| 1 else d)

/-- The loop over the octets, `src/nx_brief_extractor.c:214-233`. -/
def briefCompute (offsets : List Int) (scale : Int → Int) (img : UcImage) (x y : Int) :
    Nat → Nat → Res Bytes
  | 0, _ => .ok []
  | k + 1, i => do
    let d ← briefOctet offsets scale img x y 8 (8 * i) 0
    let ds ← briefCompute offsets scale img x y k (i + 1)
    pure (d :: ds)

/-- `nx_brief_extractor_compute_pyr`, `src/nx_brief_extractor.c:200-234`: the bytes
stored at `desc`. -/
def briefComputePyr (be : Brief) (scale : Int → Int) (img : UcImage) (x y : Int) : Res Bytes :=
  match be.offsets with
  | none => if be.nOctets ≤ 0 then .ok [] else .ub
  | some o => briefCompute o scale img x y be.nOctets.toNat 0

end Nx
