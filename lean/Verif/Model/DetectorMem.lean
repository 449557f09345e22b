import Verif.Model.DataFrameMem
import Verif.Model.Sample

/-!
# Model of the memory of images, pyramids, detectors and extractors

`src/nx_image.c`, `src/nx_mem_block.c`, `src/nx_vector_gen.c`, `src/nx_image_pyr.c`, `src/nx_image_pyr_builder.c`,
`src/nx_sift_detector.c`, `src/nx_affine_warp_processor.c`, `src/nx_fast_detector.c`, `src/nx_brief_extractor.c`.

Simplifications. Only which blocks are allocated is recorded, not what they contain. Whether a new size of an image or a vector
is larger than its capacity is a parameter (`grow`); the theorems hold for all of them. The images here own their memory: none of
these objects wraps memory of the caller. `nx_image_pyr_builder_build`, `nx_image_pyr_builder_update`, `nx_sift_detector_compute`
and `nx_affine_warp_processor_warp` are sequences of the operations here; the temporary memory of the filters that they call is
freed by these filters.
-/

namespace Nx

/-- `struct NXImage` or a vector, with its `struct NXMemBlock` and the memory of this block. -/
structure MBuf where
  self : Nat
  mem : Nat
  data : Option Nat
deriving DecidableEq, Repr

/-- `nx_image_alloc`, `src/nx_image.c:42-57`, or `alloc` of a vector, `src/nx_vector_gen.c:45-56`. -/
def bufAlloc (σ : Mem) : Mem × MBuf :=
  let a := memAlloc σ
  let b := memAlloc a.1
  (b.1, ⟨a.2, b.2, none⟩)

/-- `nx_image_resize` or `resize` of a vector, with `nx_mem_block_reserve`, `src/nx_mem_block.c:63-81`. -/
def bufResize (σ : Mem) (b : MBuf) (grow : Bool) : Res (Mem × MBuf) := do
  memUse σ b.self
  memUse σ b.mem
  if grow then
    let (σ, p) ← memRealloc σ b.data
    pure (σ, ⟨b.self, b.mem, some p⟩)
  else
    pure (σ, b)

/-- `nx_image_free`, `src/nx_image.c:111-117`, or `free` of a vector, `src/nx_vector_gen.c:65-71`, with `nx_mem_block_free`,
`src/nx_mem_block.c:53-61`. -/
def bufFree (σ : Mem) (b : MBuf) : Res Mem := do
  memUse σ b.self
  memUse σ b.mem
  let σ ← memFree σ b.data
  let σ ← memFree σ (some b.mem)
  memFree σ (some b.self)

/-- `nx_image_alloc` for each of `n` elements of an array. -/
def bufAllocs : Nat → Mem → Mem × List MBuf
  | 0, σ => (σ, [])
  | n + 1, σ =>
    let a := bufAlloc σ
    let r := bufAllocs n a.1
    (r.1, a.2 :: r.2)

/-- `nx_image_free` for each element of the array `arr`. -/
def bufFrees (arr : Nat) : List MBuf → Mem → Res Mem
  | [], σ => .ok σ
  | b :: bs, σ => do
    memUse σ arr
    let σ ← bufFree σ b
    bufFrees arr bs σ

/-- `nx_image_resize` for the element `k` of the array `arr`. -/
def bufResizeAt (σ : Mem) (arr : Nat) (bs : List MBuf) (k : Nat) (grow : Bool) : Res (Mem × List MBuf) := do
  memUse σ arr
  let b ← readAt bs k
  let (σ, b) ← bufResize σ b grow
  pure (σ, bs.set k b)

/-- `struct NXImagePyr`; the levels are the elements of the array `arr`. -/
structure MPyr where
  self : Nat
  arr : Option Nat
  levels : List MBuf
deriving DecidableEq, Repr

/-- `nx_image_pyr_alloc`, `src/nx_image_pyr.c:36-44`. -/
def pyAlloc (σ : Mem) : Mem × MPyr :=
  let a := memAlloc σ
  (a.1, ⟨a.2, none, []⟩)

/-- The loop of `nx_image_pyr_free_levels`, `src/nx_image_pyr.c:75-77`. -/
def pyFreeImages (σ : Mem) (y : MPyr) : Res Mem :=
  match y.arr with
  | none => if y.levels = [] then .ok σ else .ub
  | some a => bufFrees a y.levels σ

/-- `nx_image_pyr_free_levels`, `src/nx_image_pyr.c:71-82`. -/
def pyFreeLevels (σ : Mem) (y : MPyr) : Res (Mem × MPyr) := do
  memUse σ y.self
  let σ ← pyFreeImages σ y
  let σ ← memFree σ y.arr
  pure (σ, ⟨y.self, none, []⟩)

/-- `nx_image_pyr_free`, `src/nx_image_pyr.c:46-52`. -/
def pyFree (σ : Mem) (y : MPyr) : Res Mem := do
  let (σ, y) ← pyFreeLevels σ y
  memFree σ (some y.self)

/-- The second half of `nx_image_pyr_alloc_levels`, `src/nx_image_pyr.c:62-68`. -/
def pyFill (σ : Mem) (y : MPyr) (n : Nat) : Mem × MPyr :=
  match y.arr with
  | some _ => (σ, y)
  | none =>
    let a := memAlloc σ
    let r := bufAllocs n a.1
    (r.1, ⟨y.self, some a.2, r.2⟩)

/-- `nx_image_pyr_alloc_levels`, `src/nx_image_pyr.c:54-69`. -/
def pyAllocLevels (σ : Mem) (y : MPyr) (n : Nat) : Res (Mem × MPyr) := do
  if n = 0 then .fatal
  else
    memUse σ y.self
    let (σ, y) ← if y.levels.length ≠ n then pyFreeLevels σ y else pure (σ, y)
    pure (pyFill σ y n)

/-- `nx_image_pyr_create_level`, `src/nx_image_pyr.c:84-95`, and other changes of the size of the image of a level. -/
def pyCreateLevel (σ : Mem) (y : MPyr) (k : Nat) (grow : Bool) : Res (Mem × MPyr) := do
  memUse σ y.self
  if k < y.levels.length then
    match y.arr with
    | none => .ub
    | some a => do
      let (σ, ls) ← bufResizeAt σ a y.levels k grow
      pure (σ, ⟨y.self, some a, ls⟩)
  else .fatal

/-- `struct NXImagePyrBuilder`. -/
structure MPyrB where
  self : Nat
  work : MBuf
deriving DecidableEq, Repr

/-- `nx_image_pyr_builder_alloc`, `src/nx_image_pyr_builder.c:45-54`. -/
def pbAlloc (σ : Mem) : Mem × MPyrB :=
  let a := memAlloc σ
  let b := bufAlloc a.1
  (b.1, ⟨a.2, b.2⟩)

/-- `nx_image_pyr_builder_free`, `src/nx_image_pyr_builder.c:87-93`. -/
def pbFree (σ : Mem) (b : MPyrB) : Res Mem := do
  memUse σ b.self
  let σ ← bufFree σ b.work
  memFree σ (some b.self)

/-- A change of the size of the work image, `src/nx_image_pyr_builder.c:243, 286, 311, 316`. -/
def pbWork (σ : Mem) (b : MPyrB) (grow : Bool) : Res (Mem × MPyrB) := do
  memUse σ b.self
  let (σ, w) ← bufResize σ b.work grow
  pure (σ, ⟨b.self, w⟩)

/-- What a program does with a pyramid and a builder. -/
inductive PyOp
  | levels (n : Nat)
  | create (k : Nat) (grow : Bool)
  | work (grow : Bool)
  | clear
deriving DecidableEq, Repr

/-- A memory, a pyramid and a builder. -/
abbrev PyState := Mem × MPyr × MPyrB

/-- One operation. -/
def pyStep (s : PyState) : PyOp → Res PyState
  | .levels n => do
    let (σ, y) ← pyAllocLevels s.1 s.2.1 n
    pure (σ, y, s.2.2)
  | .create k g => do
    let (σ, y) ← pyCreateLevel s.1 s.2.1 k g
    pure (σ, y, s.2.2)
  | .work g => do
    let (σ, b) ← pbWork s.1 s.2.2 g
    pure (σ, s.2.1, b)
  | .clear => do
    let (σ, y) ← pyFreeLevels s.1 s.2.1
    pure (σ, y, s.2.2)

/-- `nx_image_pyr_alloc` and `nx_image_pyr_builder_alloc`, then operations. -/
def pyRun (σ : Mem) (ops : List PyOp) : Res PyState :=
  let y := pyAlloc σ
  let b := pbAlloc y.1
  ops.foldlM pyStep (b.1, y.2, b.2)

/-- `nx_image_pyr_free` and `nx_image_pyr_builder_free`. -/
def pyEnd (s : PyState) : Res Mem := do
  let σ ← pyFree s.1 s.2.1
  pbFree σ s.2.2

/-- `struct NXSIFTDetector`, `src/nx_sift_detector.c:84-94`. -/
structure MSift where
  self : Nat
  nScales : Int
  gx : MBuf
  gy : MBuf
  lvArr : Nat
  dgArr : Nat
  levels : List MBuf
  dogs : List MBuf
deriving DecidableEq, Repr

/-- The loop of `nx_sift_detector_new`, `src/nx_sift_detector.c:108-111`. -/
def sdAllocs : Nat → Mem → Mem × List MBuf × List MBuf
  | 0, σ => (σ, [], [])
  | n + 1, σ =>
    let a := bufAlloc σ
    let d := bufAlloc a.1
    let r := sdAllocs n d.1
    (r.1, a.2 :: r.2.1, d.2 :: r.2.2)

/-- `nx_sift_detector_new`, `src/nx_sift_detector.c:96-115`. The number of scales is not checked: with less than `-3` the size
of the array of levels is larger than any memory, and with `-3` the last level is written before the array. -/
def sdNew (σ : Mem) (nScales : Int) : Res (Mem × MSift) :=
  if nScales < -3 then .fatal
  else if nScales < -2 then .ub
  else
    let s := memAlloc σ
    let gx := bufAlloc s.1
    let gy := bufAlloc gx.1
    let la := memAlloc gy.1
    let da := memAlloc la.1
    let r := sdAllocs (nScales + 2).toNat da.1
    let z := bufAlloc r.1
    .ok (z.1, ⟨s.2, nScales, gx.2, gy.2, la.2, da.2, r.2.1 ++ [z.2], r.2.2⟩)

/-- The loop of `nx_sift_detector_free`, `src/nx_sift_detector.c:121-124`. -/
def sdFreeLoop (σ : Mem) (d : MSift) : Res Mem :=
  forLoop (d.nScales + 2).toNat (fun i σ => do
    memUse σ d.lvArr
    let a ← readAt d.levels i
    let σ ← bufFree σ a
    memUse σ d.dgArr
    let b ← readAt d.dogs i
    bufFree σ b) 0 σ

/-- `nx_sift_detector_free`, `src/nx_sift_detector.c:117-135`. -/
def sdFree (σ : Mem) (d : MSift) : Res Mem := do
  memUse σ d.self
  let σ ← sdFreeLoop σ d
  memUse σ d.lvArr
  let z ← readAt d.levels (d.nScales + 2).toNat
  let σ ← bufFree σ z
  let σ ← memFree σ (some d.lvArr)
  let σ ← memFree σ (some d.dgArr)
  let σ ← bufFree σ d.gx
  let σ ← bufFree σ d.gy
  memFree σ (some d.self)

/-- What a detector does with its images, `src/nx_sift_detector.c:561-592, 620, 647`: each is given a size. -/
inductive SdOp
  | level (k : Nat) (grow : Bool)
  | dog (k : Nat) (grow : Bool)
  | gx (grow : Bool)
  | gy (grow : Bool)
deriving DecidableEq, Repr

/-- One operation. -/
def sdStep (s : Mem × MSift) : SdOp → Res (Mem × MSift)
  | .level k g => do
    let (σ, ls) ← bufResizeAt s.1 s.2.lvArr s.2.levels k g
    pure (σ, { s.2 with levels := ls })
  | .dog k g => do
    let (σ, ls) ← bufResizeAt s.1 s.2.dgArr s.2.dogs k g
    pure (σ, { s.2 with dogs := ls })
  | .gx g => do
    let (σ, b) ← bufResize s.1 s.2.gx g
    pure (σ, { s.2 with gx := b })
  | .gy g => do
    let (σ, b) ← bufResize s.1 s.2.gy g
    pure (σ, { s.2 with gy := b })

/-- `nx_sift_detector_new`, then operations. -/
def sdRun (σ : Mem) (n : Int) (ops : List SdOp) : Res (Mem × MSift) := do
  let s ← sdNew σ n
  ops.foldlM sdStep s

/-- `struct NXAffineWarpProcessor`. -/
structure MWarp where
  self : Nat
  skew : MBuf
  sub : MBuf
  res : MBuf
deriving DecidableEq, Repr

/-- `nx_affine_warp_processor_new`, `src/nx_affine_warp_processor.c:109-124`. -/
def awNew (σ : Mem) : Mem × MWarp :=
  let s := memAlloc σ
  let a := bufAlloc s.1
  let b := bufAlloc a.1
  let c := bufAlloc b.1
  (c.1, ⟨s.2, a.2, b.2, c.2⟩)

/-- `nx_affine_warp_processor_free`, `src/nx_affine_warp_processor.c:126-134`. -/
def awFree (σ : Mem) (w : MWarp) : Res Mem := do
  memUse σ w.self
  let σ ← bufFree σ w.skew
  let σ ← bufFree σ w.sub
  let σ ← bufFree σ w.res
  memFree σ (some w.self)

/-- A warp gives each image a size; the same with other sizes for all warps. -/
def awStep (s : Mem × MWarp) (g : Bool × Bool × Bool) : Res (Mem × MWarp) := do
  memUse s.1 s.2.self
  let (σ, a) ← bufResize s.1 s.2.skew g.1
  let (σ, b) ← bufResize σ s.2.sub g.2.1
  let (σ, c) ← bufResize σ s.2.res g.2.2
  pure (σ, ⟨s.2.self, a, b, c⟩)

/-- `nx_affine_warp_processor_new`, then warps. -/
def awRun (σ : Mem) (gs : List (Bool × Bool × Bool)) : Res (Mem × MWarp) := gs.foldlM awStep (awNew σ)

/-- `struct NXFastDetector`; `ic` is `ic_data` with its table. -/
structure MFast where
  self : Nat
  keys : MBuf
  ori : Bool
  ic : Option (Nat × Nat)
deriving DecidableEq, Repr

/-- `nx_fast_detector_ic_data_new`, `src/nx_fast_detector.c:157-189`. -/
def icNew (σ : Mem) : Mem × Nat × Nat :=
  let a := memAlloc σ
  let b := memAlloc a.1
  (b.1, a.2, b.2)

/-- `nx_fast_detector_ic_data_free`, `src/nx_fast_detector.c:191-197`. -/
def icFree (σ : Mem) : Option (Nat × Nat) → Res Mem
  | none => .ok σ
  | some p => do
    memUse σ p.1
    let σ ← memFree σ (some p.2)
    memFree σ (some p.1)

/-- `nx_fast_detector_alloc`, `src/nx_fast_detector.c:199-212`. -/
def fdAlloc (σ : Mem) : Mem × MFast :=
  let a := memAlloc σ
  let b := bufAlloc a.1
  (b.1, ⟨a.2, b.2, false, none⟩)

/-- `nx_fast_detector_free`, `src/nx_fast_detector.c:214-221`. -/
def fdFree (σ : Mem) (d : MFast) : Res Mem := do
  memUse σ d.self
  let σ ← bufFree σ d.keys
  let σ ← icFree σ d.ic
  memFree σ (some d.self)

/-- `nx_fast_detector_set_ori_param`, `src/nx_fast_detector.c:367-377`. -/
def fdSetOri (σ : Mem) (d : MFast) (ori : Bool) (radius : Nat) : Res (Mem × MFast) := do
  if radius = 0 then .fatal
  else
    memUse σ d.self
    if ori then
      let σ ← icFree σ d.ic
      let r := icNew σ
      pure (r.1, { d with ori := ori, ic := some r.2 })
    else
      pure (σ, { d with ori := ori })

/-- The use of the table, `src/nx_fast_detector.c:288-290, 324-326`: only when orientations are wanted. -/
def fdUseTable (σ : Mem) (d : MFast) : Res Unit :=
  if d.ori then
    match d.ic with
    | none => .ub
    | some p => do
      memUse σ p.1
      memUse σ p.2
  else .ok ()

/-- A detection, `src/nx_fast_detector.c:264-335`: the vector of keypoints is given a size. -/
def fdDetect (σ : Mem) (d : MFast) (grow : Bool) : Res (Mem × MFast) := do
  memUse σ d.self
  let (σ, k) ← bufResize σ d.keys grow
  fdUseTable σ d
  pure (σ, { d with keys := k })

/-- What a program does with a FAST detector. -/
inductive FdOp
  | setOri (ori : Bool) (radius : Nat)
  | detect (grow : Bool)
deriving DecidableEq, Repr

/-- One operation. -/
def fdStep (s : Mem × MFast) : FdOp → Res (Mem × MFast)
  | .setOri o r => fdSetOri s.1 s.2 o r
  | .detect g => fdDetect s.1 s.2 g

/-- `nx_fast_detector_alloc`, then operations. -/
def fdRun (σ : Mem) (ops : List FdOp) : Res (Mem × MFast) := ops.foldlM fdStep (fdAlloc σ)

/-- `struct NXBriefExtractor`; `len` is the length of the array of offsets. -/
structure MBrief where
  self : Nat
  nOctets : Nat
  offsets : Option Nat
  len : Nat
deriving DecidableEq, Repr

/-- `nx_brief_extractor_alloc`, `src/nx_brief_extractor.c:42-59`. -/
def beAlloc (σ : Mem) : Mem × MBrief :=
  let a := memAlloc σ
  (a.1, ⟨a.2, 0, none, 0⟩)

/-- `nx_brief_extractor_free`, `src/nx_brief_extractor.c:75-81`. -/
def beFree (σ : Mem) (b : MBrief) : Res Mem := do
  memUse σ b.self
  let σ ← memFree σ b.offsets
  memFree σ (some b.self)

/-- The offsets of all tests are written by `nx_brief_extractor_randomize` and read by `nx_brief_extractor_compute`: four numbers
for each of eight tests of an octet. -/
def beAccess (σ : Mem) (b : MBrief) : Res Unit :=
  if b.nOctets = 0 then .ok ()
  else if b.nOctets * 8 * 4 ≤ b.len then
    match b.offsets with
    | none => .ub
    | some p => memUse σ p
  else .ub

/-- The first `if` of `nx_brief_extractor_resize`, `src/nx_brief_extractor.c:89-92`. -/
def beDrop (σ : Mem) (b : MBrief) (n : Nat) : Res (Mem × MBrief) := do
  if b.nOctets < n then
    let σ ← memFree σ b.offsets
    pure (σ, ⟨b.self, b.nOctets, none, 0⟩)
  else pure (σ, b)

/-- The second `if`, `src/nx_brief_extractor.c:94-97`. -/
def beFill (σ : Mem) (b : MBrief) (n : Nat) : Mem × MBrief :=
  match b.offsets with
  | some _ => (σ, b)
  | none =>
    let a := memAlloc σ
    (a.1, ⟨b.self, b.nOctets, some a.2, n * 8 * 4⟩)

/-- `nx_brief_extractor_resize`, `src/nx_brief_extractor.c:83-103`. The length is an `int`. -/
def beResize (σ : Mem) (b : MBrief) (n : Nat) : Res (Mem × MBrief) := do
  if n = 0 then .fatal
  else
    memUse σ b.self
    let (σ, b) ← beDrop σ b n
    if b.offsets = none ∧ 2 ^ 31 ≤ n * 8 * 4 then .ub
    else
      let r := beFill σ b n
      let b := { r.2 with nOctets := n }
      beAccess r.1 b
      pure (r.1, b)

/-- What a program does with an extractor: `some n` is `nx_brief_extractor_resize`, `none` a computation of descriptors. -/
def beStep (s : Mem × MBrief) : Option Nat → Res (Mem × MBrief)
  | some n => beResize s.1 s.2 n
  | none => do
    memUse s.1 s.2.self
    beAccess s.1 s.2
    pure s

/-- `nx_brief_extractor_alloc`, then operations. -/
def beRun (σ : Mem) (ops : List (Option Nat)) : Res (Mem × MBrief) := ops.foldlM beStep (beAlloc σ)

end Nx
