import Verif.Model.Sha256
import Verif.Model.Str
import Verif.Model.Stream
import Verif.Model.Keypoint
import Verif.Model.Sample

/-!
# Model of the files of SIFT keypoints, `src/nx_sift_detector.c`

Arrays whose memory is written to a file as it is are lists of bytes: a `struct NXKeypoint`
has 48 bytes, a `struct NXPointMatch2D` has 56 bytes. Detection and matching without
a cache are parameters. The file system maps paths to contents; a file that exists can be
read, and one that is written can be created. Device errors are not modelled.
-/

namespace Nx

/-- The files. -/
abbrev Files := Bytes → Option Bytes

/-- Writing a whole file. -/
def Files.put (fs : Files) (path content : Bytes) : Files := fun p => if p = path then some content else fs p

/-- `*max_n_keys`, `*keys` and `*desc` of the interface. -/
structure KeyBuf where
  max : Nat
  keys : Bytes
  desc : Bytes
deriving DecidableEq, Repr

/-- A grayscale image as the cache sees it. -/
structure ByteImage where
  width : Nat
  height : Nat
  stride : Nat
  /-- Whether the samples are bytes (`NX_IMAGE_UCHAR`). -/
  uchar : Bool
  data : Bytes
deriving DecidableEq, Repr

/-- Message `i`, `src/nx_sift_detector.c:680-686`. The branch for `float` samples is never
taken (the second condition repeats the first), so that address and length are
indeterminate. -/
def rowMsg (img : ByteImage) (i : Nat) : Res Bytes :=
  if img.uchar then
    if i * img.stride + img.width ≤ img.data.length then .ok ((img.data.drop (i * img.stride)).take img.width) else .ub
  else .ub

/-- The messages, `src/nx_sift_detector.c:675-689`; `param` is the memory of the parameters. -/
def imageMsgs (img : ByteImage) (param : Bytes) : Res (List Bytes) := do
  let ms ← forLoop img.height (fun i ms => do
    let m ← rowMsg img i
    pure (ms ++ [m])) 0 []
  pure (ms ++ [param])

/-- The path of a file in the cache, `src/nx_sift_detector.c:690-695` and `:855-860`. `block0` is the
initial content of a local array. -/
def cachePath (block0 : Bytes) (dir ext : Bytes) (msgs : List Bytes) : Res Bytes := do
  let hash ← sha256Multi none block0 msgs
  let t ← hashToStr 32 hash
  pure (dir ++ bytesOf "/" ++ t ++ ext)

/-- `nx_xfread(&n, sizeof(n), 1, stream)`, `src/nx_io.c:98-102`, for an `int`. -/
def xreadInt (st : Bytes) : Res (Int × Bytes) :=
  match fread1 4 st with
  | (some b, st) => .ok (intOfLe32 b, st)
  | (none, _) => .fatal

/-- `nx_xfread` of `k` bytes, `src/nx_io.c:98-102`, to the start of an array. -/
def xreadMem (mem : Bytes) (k : Nat) (st : Bytes) : Res (Bytes × Bytes) :=
  if k ≤ st.length then
    if k ≤ mem.length then .ok (st.take k ++ mem.drop k, st.drop k) else .ub
  else if st.length ≤ mem.length then .fatal else .ub

/-- `nx_xrealloc` to `len` bytes. -/
def reallocMem {α : Type} (junk : Nat → α) (mem : List α) (len : Nat) : List α :=
  mem.take len ++ (List.range (len - mem.length)).map junk

/-- `nx_xfwrite` of the first `k` bytes of an array, `src/nx_io.c:92-96`. -/
def xwriteMem (mem : Bytes) (k : Nat) : Res Bytes := if k ≤ mem.length then .ok (mem.take k) else .ub

/-- Reading from the cache, `src/nx_sift_detector.c:698-708`. A negative number makes the size of the
read too large; it is treated as undefined. -/
def readKeyCache (junk : Nat → Byte) (content : Bytes) (buf : KeyBuf) : Res (Nat × KeyBuf) := do
  let (n, st) ← xreadInt content
  if n < 0 then .ub
  else if 2147483647 < n * 128 then .ub
  else do
    let n := n.toNat
    let buf := if buf.max < n then
        { max := n, keys := reallocMem junk buf.keys (n * 48), desc := reallocMem junk buf.desc (n * 128) }
      else buf
    let (ks, st) ← xreadMem buf.keys (n * 48) st
    let (ds, _) ← xreadMem buf.desc (n * 128) st
    pure (n, { buf with keys := ks, desc := ds })

/-- Writing to the cache, `src/nx_sift_detector.c:717-720`. -/
def writeKeyCache (n : Nat) (buf : KeyBuf) : Res Bytes :=
  if 2147483647 < n * 128 then .ub
  else do
    let ks ← xwriteMem buf.keys (n * 48)
    let ds ← xwriteMem buf.desc (n * 128)
    pure (leInt32 n ++ ks ++ ds)

/-- `nx_sift_detector_compute_with_cache`, `src/nx_sift_detector.c:659-730`: the returned number, the
arrays and the files. -/
def siftWithCache (compute : ByteImage → Bytes → KeyBuf → Res (Nat × KeyBuf)) (block0 : Bytes) (junk : Nat → Byte)
    (dir : Bytes) (img : ByteImage) (param : Bytes) (buf : KeyBuf) (fs : Files) : Res (Nat × KeyBuf × Files) := do
  let msgs ← imageMsgs img param
  let path ← cachePath block0 dir (bytesOf ".sift") msgs
  match fs path with
  | some content => do
    let (n, buf) ← readKeyCache junk content buf
    pure (n, buf, fs)
  | none => do
    let (n, buf) ← compute img param buf
    let content ← writeKeyCache n buf
    pure (n, buf, fs.put path content)

/-- One of the two sets of keypoints given to the matcher: its number and its arrays. -/
structure RawKeys where
  n : Nat
  keys : Bytes
  desc : Bytes
deriving DecidableEq, Repr

/-- The messages of the cache of matches, `src/nx_sift_detector.c:839-853`; `thr` is the memory of the threshold. -/
def matchMsgs (a b : RawKeys) (thr : Bytes) : Res (List Bytes) := do
  let m0 ← xwriteMem a.keys (a.n * 48)
  let m1 ← xwriteMem a.desc (a.n * 128)
  let m2 ← xwriteMem b.keys (b.n * 48)
  let m3 ← xwriteMem b.desc (b.n * 128)
  pure [m0, m1, m2, m3, thr]

/-- `nx_sift_match_brute_force_with_cache`, `src/nx_sift_detector.c:820-887`: the returned number, the array
of matches and the files. -/
def matchWithCache (matcher : RawKeys → RawKeys → Bytes → Bytes → Res (Nat × Bytes)) (block0 : Bytes) (dir : Bytes)
    (a b : RawKeys) (thr : Bytes) (corr : Bytes) (fs : Files) : Res (Nat × Bytes × Files) := do
  let msgs ← matchMsgs a b thr
  let path ← cachePath block0 dir (bytesOf ".sift_matches") msgs
  match fs path with
  | some content => do
    let (n, st) ← xreadInt content
    if n < 0 then .ub
    else do
      let (corr, _) ← xreadMem corr (n.toNat * 56) st
      pure (n.toNat, corr, fs)
  | none => do
    let (n, corr) ← matcher a b thr corr
    let cs ← xwriteMem corr (n * 56)
    pure (n, corr, fs.put path (leInt32 n ++ cs))

/-- `nx_sift_xsave`, `src/nx_sift_detector.c:889-909`: the content of the file. -/
def siftSave (n : Nat) (keys : List Keypoint) (desc : Bytes) : Res Bytes :=
  if n ≤ keys.length then
    if 2147483647 < n * 128 then .ub
    else do
      let ds ← xwriteMem desc (n * 128)
      pure (leInt32 n ++ leInt32 128 ++ keypointWrite (keys.take n) ++ ds)
  else .ub

/-- `nx_sift_xload`, `src/nx_sift_detector.c:911-945`: the returned number, `*max_n_keys`, `*keys` and `*desc`. -/
def siftLoad (junkK : Nat → Keypoint) (junkB : Nat → Byte) (content : Bytes) (max : Nat) (keys : List Keypoint) (desc : Bytes) :
    Res (Nat × Nat × List Keypoint × Bytes) := do
  let (n, st) ← xreadInt content
  if n < 0 then .fatal
  else do
    let (dim, st) ← xreadInt st
    if dim ≠ 128 then .fatal
    else if 2147483647 < n * 128 then .ub
    else do
      let n := n.toNat
      let (max, keys, desc) :=
        if max < n then (n, reallocMem junkK keys n, reallocMem junkB desc (n * 128)) else (max, keys, desc)
      let (keys, st) ← keypointXread n keys st
      let (desc, _) ← xreadMem desc (n * 128) st
      pure (n, max, keys, desc)

end Nx
