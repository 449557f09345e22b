import Verif.Model.DetectorMem

/-!
# Model of the memory of the panorama builder, `tools/nx_panorama_builder.c`

Simplifications. Only which blocks are allocated is recorded, not what they contain. What depends on the contents is a parameter:
whether results are in the cache, how often the arrays of keypoints grow, whether an image has no keypoints, and which
homographies are found; the theorems hold for all of them. The paths through the graph of the images, with what is undefined
there, are in `Verif/Model/Panorama.lean`; the results of the cache in `Verif/Model/SiftFiles.lean`. The size of an image that
is loaded is at least one pixel.
-/

namespace Nx

/-- The blocks that one image of the panorama has. -/
structure MPanImg where
  img : MBuf
  keys : Nat
  desc : Nat
  toRef : Nat
  fromRef : Nat
deriving DecidableEq, Repr

/-- The arrays of `struct NXPanoramaBuilder`, `tools/nx_panorama_builder.c:68-84`. -/
structure MPanArrs where
  images : Nat
  nKeys : Nat
  maxKeys : Nat
  keys : Nat
  desc : Nat
  total : Nat
  toRef : Nat
  fromRef : Nat
  nMatches : Nat
  matches_ : Nat
  hs : Nat
  cost : Nat
deriving DecidableEq, Repr

/-- `struct NXPanoramaBuilder`, `tools/nx_panorama_builder.c:62-87`. -/
structure MPan where
  self : Nat
  det : MSift
  names : DMLevels
  arrs : MPanArrs
  imgs : List MPanImg
  pms : List (Option Nat)
  hs : List (Option Nat)
  pan : MBuf
deriving DecidableEq, Repr

/-- The appending of `n` names, `src/nx_string_array.c:62-65`. -/
def pnNames : Nat → Mem → DMLevels → Res (Mem × DMLevels)
  | 0, σ, lv => .ok (σ, lv)
  | n + 1, σ, lv => do
    let (σ, lv) ← dmLevelsAppend σ lv .ext
    pnNames n σ lv

/-- One image, `tools/nx_panorama_builder.c:117-128`. -/
def pnImage (σ : Mem) : Res (Mem × MPanImg) := do
  let a := bufAlloc σ
  let (σ, b) ← bufResize a.1 a.2 true
  let k := memAlloc σ
  let d := memAlloc k.1
  let t := memAlloc d.1
  let f := memAlloc t.1
  pure (f.1, ⟨b, k.2, d.2, t.2, f.2⟩)

/-- The loop, `tools/nx_panorama_builder.c:116-128`. -/
def pnImages : Nat → Mem → Res (Mem × List MPanImg)
  | 0, σ => .ok (σ, [])
  | n + 1, σ => do
    let (σ, i) ← pnImage σ
    let (σ, is) ← pnImages n σ
    pure (σ, i :: is)

/-- The rest of `nx_panorama_builder_new_from_options`, `tools/nx_panorama_builder.c:107-146`. -/
def pnNewArrs (σ : Mem) (self : Nat) (det : MSift) (names : DMLevels) (n : Nat) : Res (Mem × MPan) := do
  let a1 := memAlloc σ
  let a2 := memAlloc a1.1
  let a3 := memAlloc a2.1
  let a4 := memAlloc a3.1
  let a5 := memAlloc a4.1
  let a6 := memAlloc a5.1
  let a7 := memAlloc a6.1
  let a8 := memAlloc a7.1
  let (σ, is) ← pnImages n a8.1
  let b1 := memAlloc σ
  let b2 := memAlloc b1.1
  let b3 := memAlloc b2.1
  let b4 := memAlloc b3.1
  let p := bufAlloc b4.1
  pure (p.1, ⟨self, det, names, ⟨a1.2, a2.2, a3.2, a4.2, a5.2, a6.2, a7.2, a8.2, b1.2, b2.2, b3.2, b4.2⟩, is,
    List.replicate (n * n) none, List.replicate (n * n) none, p.2⟩)

/-- `nx_panorama_builder_new_from_options`, `tools/nx_panorama_builder.c:89-147`, for `n` images. -/
def pnNew (σ : Mem) (nScales : Int) (n : Nat) : Res (Mem × MPan) := do
  let s := memAlloc σ
  let (σ, det) ← sdNew s.1 nScales
  let lv := dmLevelsAlloc σ
  let (σ, names) ← pnNames n lv.1 lv.2
  if n < 2 then .fatal else pnNewArrs σ s.2 det names n

/-- The loop of `nx_panorama_builder_free`, `tools/nx_panorama_builder.c:158-164`. -/
def pnFreeImages (a : MPanArrs) : List MPanImg → Mem → Res Mem
  | [], σ => .ok σ
  | i :: is, σ => do
    memUse σ a.images
    let σ ← bufFree σ i.img
    memUse σ a.keys
    let σ ← memFree σ (some i.keys)
    memUse σ a.desc
    let σ ← memFree σ (some i.desc)
    memUse σ a.toRef
    let σ ← memFree σ (some i.toRef)
    memUse σ a.fromRef
    let σ ← memFree σ (some i.fromRef)
    pnFreeImages a is σ

/-- The loop, `tools/nx_panorama_builder.c:177-180`. -/
def pnFreePairs (σ : Mem) (p : MPan) : Res Mem :=
  forLoop (p.imgs.length * p.imgs.length) (fun i σ => do
    memUse σ p.arrs.matches_
    let m ← readAt p.pms i
    let σ ← memFree σ m
    memUse σ p.arrs.hs
    let h ← readAt p.hs i
    memFree σ h) 0 σ

/-- The freeing of the arrays of the images, `tools/nx_panorama_builder.c:165-175`. -/
def pnFreeArrs (σ : Mem) (a : MPanArrs) : Res Mem := do
  let σ ← memFree σ (some a.images)
  let σ ← memFree σ (some a.nKeys)
  let σ ← memFree σ (some a.maxKeys)
  let σ ← memFree σ (some a.keys)
  let σ ← memFree σ (some a.desc)
  let σ ← memFree σ (some a.total)
  let σ ← memFree σ (some a.toRef)
  let σ ← memFree σ (some a.fromRef)
  memFree σ (some a.nMatches)

/-- `nx_panorama_builder_free`, `tools/nx_panorama_builder.c:149-189`. -/
def pnFree (σ : Mem) (p : MPan) : Res Mem := do
  memUse σ p.self
  let σ ← sdFree σ p.det
  let σ ← dmLevelsFree σ (some p.names)
  let σ ← pnFreeImages p.arrs p.imgs σ
  let σ ← pnFreeArrs σ p.arrs
  let σ ← pnFreePairs σ p
  let σ ← memFree σ (some p.arrs.matches_)
  let σ ← memFree σ (some p.arrs.hs)
  let σ ← memFree σ (some p.arrs.cost)
  let σ ← bufFree σ p.pan
  memFree σ (some p.self)

/-- `nx_xrealloc`, `src/nx_alloc.c:105-112`: with a size of zero the C library frees a block and returns `NULL`, and allocates a
block of size zero for `NULL`. -/
def memReallocZ (σ : Mem) (p : Option Nat) (zero : Bool) : Res (Mem × Option Nat) :=
  if zero = true ∧ p ≠ none then do
    let σ ← memFree σ p
    pure (σ, none)
  else do
    let (σ, q) ← memRealloc σ p
    pure (σ, some q)

/-- What a call of `nx_sift_detector_compute_with_cache` finds: no file, then how the images of the detector get their sizes; and
how often the arrays grow. -/
structure ScArg where
  cached : Bool
  double : Bool
  ops : List SdOp
  grows : Nat
deriving DecidableEq, Repr

/-- The growing of the arrays, `src/nx_sift_detector.c:154-159, 699-703`. -/
def scGrow : Nat → Mem → Nat → Nat → Res (Mem × Nat × Nat)
  | 0, σ, k, d => .ok (σ, k, d)
  | n + 1, σ, k, d => do
    let (σ, k) ← memRealloc σ (some k)
    let (σ, d) ← memRealloc σ (some d)
    scGrow n σ k d

/-- `nx_sift_detector_compute`, `src/nx_sift_detector.c:594-657`, without the arrays. -/
def scDetect (σ : Mem) (det : MSift) (a : ScArg) : Res (Mem × MSift) := do
  memUse σ det.self
  let b := bufAlloc σ
  let (σ, b) ← bufResize b.1 b.2 a.double
  let σ ← bufFree σ b
  a.ops.foldlM sdStep (σ, det)

/-- The branches of `nx_sift_detector_compute_with_cache`, `src/nx_sift_detector.c:694-723`, without the arrays. -/
def scFind (σ : Mem) (det : MSift) (a : ScArg) : Res (Mem × MSift) := if a.cached then .ok (σ, det) else scDetect σ det a

/-- `nx_sift_detector_compute_with_cache`, `src/nx_sift_detector.c:659-730`: `msgs` and `lmsg` are allocated in lines 677 and 678;
only `hash_str` and `cachefilepath` are freed. -/
def scCompute (σ : Mem) (det : MSift) (k d : Nat) (a : ScArg) : Res (Mem × MSift × Nat × Nat) := do
  let msgs := memAlloc σ
  let lmsg := memAlloc msgs.1
  let hash := memAlloc lmsg.1
  let path := memAlloc hash.1
  let (σ, det) ← scFind path.1 det a
  let (σ, k, d) ← scGrow a.grows σ k d
  let σ ← memFree σ (some hash.2)
  let σ ← memFree σ (some path.2)
  pure (σ, det, k, d)

/-- The first loop of `nx_panorama_builder_init`, `tools/nx_panorama_builder.c:306-316`. -/
def pnDetect (a : MPanArrs) : List MPanImg → List ScArg → Mem → MSift → Res (Mem × MSift × List MPanImg)
  | i :: is, c :: cs, σ, det => do
    memUse σ a.images
    memUse σ i.img.self
    memUse σ a.keys
    memUse σ a.desc
    let (σ, det, k, d) ← scCompute σ det i.keys i.desc c
    let (σ, det, is) ← pnDetect a is cs σ det
    pure (σ, det, { i with keys := k, desc := d } :: is)
  | [], _, σ, det => .ok (σ, det, [])
  | _ :: _, [], _, _ => .fatal

/-- The pairs of different images, in the order of the loops, `tools/nx_panorama_builder.c:319-326, 349-353`. -/
def pnPairs (n : Nat) : List (Nat × Nat) :=
  (List.range n).flatMap fun i => ((List.range n).filter fun j => decide (j ≠ i)).map fun j => (i, j)

/-- `nx_sift_match_brute_force_with_cache`, `src/nx_sift_detector.c:820-887`: `NULL` is refused, `msgs` and `lmsg` are allocated in
lines 840 and 841 and only `hash_str` and `cachefilepath` are freed. -/
def scMatch (σ : Mem) (pm : Option Nat) : Res Mem :=
  match pm with
  | none => .fatal
  | some p => do
    let msgs := memAlloc σ
    let lmsg := memAlloc msgs.1
    let hash := memAlloc lmsg.1
    let path := memAlloc hash.1
    memUse path.1 p
    let σ ← memFree path.1 (some hash.2)
    memFree σ (some path.2)

/-- The matches of two images, `tools/nx_panorama_builder.c:332-345`; `empty i` says that the image `i` has no keypoints. -/
def pnMatch (a : MPanArrs) (n : Nat) (empty : Nat → Bool) (s : Mem × List (Option Nat)) (ij : Nat × Nat) :
    Res (Mem × List (Option Nat)) := do
  memUse s.1 a.matches_
  let pm ← readAt s.2 (ij.2 * n + ij.1)
  let (σ, pm) ← memReallocZ s.1 pm (empty ij.1)
  let σ ← scMatch σ pm
  pure (σ, s.2.set (ij.2 * n + ij.1) pm)

/-- `nx_panorama_builder_fit_initial_homography`, `tools/nx_panorama_builder.c:209-236`; `fit` says that there are enough
inliers. -/
def pnFit (σ : Mem) (hp : Option Nat) (fit : Bool) : Res (Mem × Option Nat) :=
  match fit, hp with
  | true, none => .ok ((memAlloc σ).1, some (memAlloc σ).2)
  | true, some p => do
    memUse σ p
    pure (σ, some p)
  | false, hp => do
    let σ ← memFree σ hp
    pure (σ, none)

/-- The homography of two images, `tools/nx_panorama_builder.c:355-361`. -/
def pnFitPair (a : MPanArrs) (n : Nat) (fit : Nat → Nat → Bool) (s : Mem × List (Option Nat)) (ij : Nat × Nat) :
    Res (Mem × List (Option Nat)) := do
  memUse s.1 a.hs
  let hp ← readAt s.2 (ij.2 * n + ij.1)
  let (σ, hp) ← pnFit s.1 hp (fit ij.1 ij.2)
  pure (σ, s.2.set (ij.2 * n + ij.1) hp)

/-- `nx_panorama_builder_find_shortest_paths`, `tools/nx_panorama_builder.c:238-285`: of `next_node`, `node_val` and `visited` only
`node_val` is freed. -/
def pnPaths (σ : Mem) : Res (Mem × Nat) := do
  let nn := memAlloc σ
  let nv := memAlloc nn.1
  let vi := memAlloc nv.1
  let σ ← memFree vi.1 (some nv.2)
  pure (σ, nn.2)

/-- What a run depends on. -/
structure PnArg where
  sift : List ScArg
  empty : Nat → Bool
  fit : Nat → Nat → Bool
  grow : Bool

/-- `nx_panorama_builder_init`, `tools/nx_panorama_builder.c:286-417`. -/
def pnInit (σ : Mem) (p : MPan) (a : PnArg) : Res (Mem × MPan) := do
  memUse σ p.self
  let n := p.imgs.length
  let (σ, det, imgs) ← pnDetect p.arrs p.imgs a.sift σ p.det
  let (σ, pms) ← (pnPairs n).foldlM (pnMatch p.arrs n a.empty) (σ, p.pms)
  let (σ, hs) ← (pnPairs n).foldlM (pnFitPair p.arrs n a.fit) (σ, p.hs)
  let (σ, next) ← pnPaths σ
  let σ ← memFree σ (some next)
  pure (σ, { p with det := det, imgs := imgs, pms := pms, hs := hs })

/-- `nx_panorama_builder_run`, `tools/nx_panorama_builder.c:191-199`: after `nx_panorama_builder_init` the panorama gets a size,
`tools/nx_panorama_builder.c:461-463`. -/
def pnRun (σ : Mem) (p : MPan) (a : PnArg) : Res (Mem × MPan) := do
  let (σ, p) ← pnInit σ p a
  let (σ, b) ← bufResize σ p.pan a.grow
  pure (σ, { p with pan := b })

/-- A new builder, some runs, and what is allocated after the builder is freed; `tools/nx_stitch_main.c` has one run. -/
def pnAll (σ : Mem) (nScales : Int) (n : Nat) (as : List PnArg) : Res Mem := do
  let s ← pnNew σ nScales n
  let s ← as.foldlM (fun s a => pnRun s.1 s.2 a) s
  pnFree s.1 s.2

end Nx
