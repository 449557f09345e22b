import Verif.Model.SiftOri
import Verif.Model.SiftFiles
import Mathlib.Algebra.Order.Ring.Rat
import Mathlib.Data.Rat.Floor

/-!
# Model of the store of SIFT keypoints, `src/nx_sift_detector.c`

`rd` is the rounding of `float`; the constant `1.6f` is 13421773 / 2 ^ 23.
-/

namespace Nx

/-- `struct NXSIFTKeyStore`, `src/nx_sift_detector.c:144-149`. -/
structure KeyStore (κ : Type) where
  n : Int
  cap : Int
  keys : List κ
  desc : List Byte

/-- `(int)(store->cap * 1.6f)`, `src/nx_sift_detector.c:154`. -/
def growCap (rd : Rat → Rat) (cap : Int) : Int := cTrunc (rd (rd cap * (13421773 / 8388608)))

/-- The reallocation, `src/nx_sift_detector.c:154-159`. The second size is computed as `int`; a negative size is
too large. -/
def growStore {κ : Type} (rd : Rat → Rat) (junkK : Nat → κ) (junkB : Nat → Byte) (s : KeyStore κ) : Res (KeyStore κ) :=
  let c := growCap rd s.cap
  if c < 0 then .fatal
  else if 2147483647 < c * 128 then .ub
  else .ok { s with cap := c, keys := reallocMem junkK s.keys c.toNat, desc := reallocMem junkB s.desc (c * 128).toNat }

/-- `nx_sift_key_store_append`, `src/nx_sift_detector.c:151-166`. -/
def storeAppend {κ : Type} (rd : Rat → Rat) (junkK : Nat → κ) (junkB : Nat → Byte) (s : KeyStore κ) : Res (KeyStore κ × Int) := do
  let s ← if s.n ≥ s.cap then growStore rd junkK junkB s else pure s
  if s.n < s.cap then pure ({ s with n := s.n + 1 }, s.n) else .fatal

/-- The bytes of a descriptor are written from `desc + off` on. -/
def putBytes (desc : List Byte) (off : Nat) (bs : List Byte) : Res (List Byte) :=
  forLoop bs.length (fun i desc => do
    let b ← readAt bs i
    writeAt desc (off + i) b) 0 desc

/-- `struct NXKeypoint` with exact numbers, `include/virg/nexus/nx_keypoint.h`. -/
structure SiftRecord (K : Type) where
  x : Int
  y : Int
  xs : K
  ys : K
  level : Int
  scale : K
  sigma : K
  score : K
  ori : K
  id : Int

section
variable {K : Type} [Field K] [LinearOrder K] [IsStrictOrderedRing K] [FloorRing K]

/-- The fields of a keypoint, `src/nx_sift_detector.c:395-404`; `scale` is `pow(2.0, octave)`. -/
def makeRecord (octave : Int) (scale sigma score x y ori : K) (id : Int) : SiftRecord K :=
  ⟨cTrunc (x + 1 / 2), cTrunc (y + 1 / 2), x, y, octave, scale, sigma, score, ori, id⟩

/-- The fields that are used for the descriptor. -/
def SiftRecord.key (r : SiftRecord K) : SiftKey K := ⟨r.x, r.y, r.xs, r.ys, r.sigma, r.ori⟩

/-- Creating a keypoint, `src/nx_sift_detector.c:392-407`; `descr` is `nx_sift_compute_descriptor` with the images and parameters of the
detector. -/
def storeKey (rd : Rat → Rat) (junkK : Nat → SiftRecord K) (junkB : Nat → Byte) (descr : SiftKey K → Res (List Byte))
    (octave : Int) (scale sigma score x y ori : K) (s : KeyStore (SiftRecord K)) : Res (KeyStore (SiftRecord K)) := do
  let (s, id) ← storeAppend rd junkK junkB s
  let r := makeRecord octave scale sigma score x y ori id
  let keys ← writeI s.keys id r
  if 2147483647 < id * 128 then .ub
  else do
    let bs ← descr r.key
    let desc ← putBytes s.desc (id * 128).toNat bs
    pure { s with keys := keys, desc := desc }

/-- The keypoints of a list of directions. -/
def storeDirs (rd : Rat → Rat) (junkK : Nat → SiftRecord K) (junkB : Nat → Byte) (descr : SiftKey K → Res (List Byte))
    (octave : Int) (scale sigma score x y : K) : List (Nat × K) → KeyStore (SiftRecord K) → Res (KeyStore (SiftRecord K))
  | [], s => .ok s
  | (_, ori) :: rest, s => do
    let s ← storeKey rd junkK junkB descr octave scale sigma score x y ori s
    storeDirs rd junkK junkB descr octave scale sigma score x y rest s

/-- `nx_sift_compute_keys`, `src/nx_sift_detector.c:364-410`; `pow2` is `pow(2.0, ·)`. The directions are found first here: creating a keypoint does not
change the histogram. `hist` and `buf` are the arrays without initialisation. -/
def computeKeys (m : FloatMath K) (pow2 : K → K) (rd : Rat → Rat) (junkK : Nat → SiftRecord K) (junkB : Nat → Byte) (hist buf : List K)
    (hp : 0 < 2 * m.pi) (gx gy : GImage K) (nScales mag octave : Int) (sigmaC dogVal i x y : K) (s : KeyStore (SiftRecord K)) :
    Res (KeyStore (SiftRecord K)) := do
  let sigma := sigmaC * pow2 (i / nScales)
  let (hist, p) ← oriHist m hist buf gx gy x y sigma
  let dirs ← oriKeys m hist p
  storeDirs rd junkK junkB (fun k => siftDescriptor m hp gx gy k mag) octave (pow2 octave) sigma dogVal x y dirs s

end

/-- The sizes of the first level in the octaves, `src/nx_sift_detector.c:642-649` with `nx_image_downsample`, `src/nx_image.c:684-685`; `limit` is
`MIN_DIM`, for borders of at least -1. -/
def octaveSizes (limit w h : Nat) : List (Nat × Nat) :=
  if limit < w ∧ limit < h then (w, h) :: octaveSizes limit (w / 2) (h / 2) else []
termination_by w
decreasing_by omega

end Nx
