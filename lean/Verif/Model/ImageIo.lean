import Verif.Model.Pnm
import Verif.Model.Kitti

/-!
# Model of `src/nx_image_io.c` and `src/nx_vgg_affine_dataset.c`

8-bit images. Files are byte lists, names are byte lists without a zero; files can always be written and read completely. The
functions for JPEG and PNG files are parameters. Messages are not modelled.
-/

namespace Nx

/-- `enum NXImageFileFormat`, `include/virg/nexus/nx_image_io.h:34-40`. -/
inductive ImgFormat where
  | unknown | ascii | pnm | jpeg | png
deriving DecidableEq, Repr

/-- `strrchr`: the text from the last occurrence on. -/
def strrchr (c : Byte) : Bytes → Option Bytes
  | [] => none
  | b :: r =>
    match strrchr c r with
    | some t => some t
    | none => if b = c then some (b :: r) else none

/-- `nx_image_file_format_from_header`, `src/nx_image_io.c:35-70`, for the contents of the file, if it can be opened. -/
def formatOfHeader : Option Bytes → ImgFormat
  | none => .unknown
  | some s =>
    match s with
    | m0 :: m1 :: m2 :: m3 :: _ =>
      let fmt := if m0 = 80 then
          if m1 = 52 ∨ m1 = 53 ∨ m1 = 54 then ImgFormat.pnm
          else if m1 = 49 ∨ m1 = 50 ∨ m1 = 51 then .ascii else .unknown
        else .unknown
      let fmt := if m0 = 0xFF ∧ m1 = 0xD8 then .jpeg else fmt
      if m0 = 0x89 ∧ m1 = 0x50 ∧ m2 = 0x4E ∧ m3 = 0x47 then .png else fmt
    | _ => .unknown

/-- `nx_image_file_format_from_filename`, `src/nx_image_io.c:72-87`. -/
def formatOfName (name : Bytes) : ImgFormat :=
  match strrchr 46 name with
  | none => .unknown
  | some dot =>
    if dot = bytesOf ".pgm" ∨ dot = bytesOf ".PGM" ∨ dot = bytesOf ".ppm" ∨ dot = bytesOf ".PPM" then .pnm
    else if dot = bytesOf ".jpg" ∨ dot = bytesOf ".jpeg" ∨ dot = bytesOf ".JPG" ∨ dot = bytesOf ".JPEG" then .jpeg
    else if dot = bytesOf ".png" ∨ dot = bytesOf ".PNG" then .png
    else .unknown

/-- The functions for the other kinds of files: what is written, or nothing for `NX_FAIL`; the image that is read. -/
structure Codecs where
  saveJpeg : UImg → Res (Option Bytes)
  savePng : UImg → Res (Option Bytes)
  loadJpeg : LoadMode → Bytes → Res (Option UImg)
  loadPng : LoadMode → Bytes → Res (Option UImg)

/-- A file is written, or nothing for `NX_FAIL`. -/
def writeFile (fs : Files) (name : Bytes) : Option Bytes → Option Files
  | none => none
  | some b => some (fs.put name b)

/-- `nx_image_save`, `src/nx_image_io.c:101-117`. -/
def imageSave (C : Codecs) (img : UImg) (name : Bytes) (fs : Files) : Res (Option Files) := do
  match formatOfName name with
  | .pnm => do
    let b ← savePnm img
    pure (writeFile fs name (some b))
  | .jpeg => do
    let b ← C.saveJpeg img
    pure (writeFile fs name b)
  | .png => do
    let b ← C.savePng img
    pure (writeFile fs name b)
  | _ => do
    let b ← savePnm img
    pure (writeFile fs name (some b))

/-- `nx_image_load`, `src/nx_image_io.c:119-136`. -/
def imageLoad (C : Codecs) (junk : Nat → Byte) (name : Bytes) (mode : LoadMode) (fs : Files) : Res (Option UImg) :=
  match formatOfHeader (fs name) with
  | .ascii => .ok none
  | .pnm =>
    match fs name with
    | none => .ok none
    | some b => loadPnm junk mode b
  | .jpeg =>
    match fs name with
    | none => .ok none
    | some b => C.loadJpeg mode b
  | .png =>
    match fs name with
    | none => .ok none
    | some b => C.loadPng mode b
  | .unknown => .ok none

/-- `nx_image_xload`, `src/nx_image_io.c:95-99`. -/
def imageXload (C : Codecs) (junk : Nat → Byte) (name : Bytes) (mode : LoadMode) (fs : Files) : Res UImg := do
  let r ← imageLoad C junk name mode fs
  orFatal r

/-- `nx_image_xsave`, `src/nx_image_io.c:89-93`. -/
def imageXsave (C : Codecs) (img : UImg) (name : Bytes) (fs : Files) : Res Files := do
  let r ← imageSave C img name fs
  orFatal r

/-! ## VGG affine sequences -/

/-- `NX_VGG_AFFINE_SEQ_NAMES`, `src/nx_vgg_affine_dataset.c:38-39`. -/
def vggNames : List String := ["bark", "bikes", "boat", "graf", "leuven", "trees", "ubc", "wall"]

/-- `NX_VGG_AFFINE_SEQUENCE_DIR_FORMAT`, `src/nx_vgg_affine_dataset.c:41`. -/
def vggDir (base name : Bytes) : Bytes := base ++ bytesOf "/" ++ name

/-- `NX_VGG_AFFINE_H_FILE_FORMAT`, `src/nx_vgg_affine_dataset.c:42`. -/
def vggHFile (base name : Bytes) (i : Nat) : Bytes := vggDir base name ++ bytesOf "/H1to" ++ natText i ++ bytesOf "p"

/-- `NX_VGG_AFFINE_FRAME_FILE_FORMAT` and the alternative, `src/nx_vgg_affine_dataset.c:43-44`. -/
def vggFrame (base name : Bytes) (i : Nat) (ext : String) : Bytes := vggDir base name ++ bytesOf "/img" ++ natText i ++ bytesOf ext

section
variable {D : Type}

/-- One of the nine `fscanf`, `src/nx_vgg_affine_dataset.c:61-64`. -/
def vggCell (scan : Bytes → Option (D × Bytes)) (r c : Nat) (q : List D × Bytes) : Res (List D × Bytes) :=
  match scan q.2 with
  | none => .fatal
  | some (d, t) => do
    let H ← writeAt q.1 (c * 3 + r) d
    pure (H, t)

/-- The loops over rows and columns, `src/nx_vgg_affine_dataset.c:59-68`. -/
def vggMatrix (scan : Bytes → Option (D × Bytes)) (junk : D) (text : Bytes) : Res (List D) := do
  let q ← forLoop 3 (fun r q => forLoop 3 (vggCell scan r) 0 q) 0 (List.replicate 9 junk, text)
  pure q.1

/-- One round of the loop over the images, `src/nx_vgg_affine_dataset.c:53-72`. -/
def vggStep (scan : Bytes → Option (D × Bytes)) (junk : D) (files : Files) (base name : Bytes) (i : Nat) (h : List (List D)) :
    Res (List (List D)) :=
  match files (vggHFile base name (i + 1)) with
  | none => .fatal
  | some t => do
    let H ← vggMatrix scan junk t
    writeAt h i H

/-- `nx_vgg_affine_xread_ground_truth`, `src/nx_vgg_affine_dataset.c:46-75`; `zero` and `one` are the numbers of `nx_dmat3_eye`. -/
def vggTruth (scan : Bytes → Option (D × Bytes)) (junk zero one : D) (files : Files) (base name : Bytes) (length : Nat) :
    Res (List (List D)) := do
  let h ← writeAt (List.replicate length []) 0 [one, zero, zero, zero, one, zero, zero, zero, one]
  forLoop length (vggStep scan junk files base name) 1 h

/-- `struct NXVGGAffineSequence`, `include/virg/nexus/nx_vgg_affine_dataset.h:38-43`. -/
structure VggSeq (D : Type) where
  base : Bytes
  name : Bytes
  length : Nat
  h : List (List D)
deriving DecidableEq, Repr

/-- The loop over the names, `src/nx_vgg_affine_dataset.c:87-92`: `strncmp` over the length of the name is equality of
prefixes. -/
def vggKnown (name : Bytes) : Bool := vggNames.any fun s => (bytesOf s).isPrefixOf name

/-- `nx_vgg_affine_sequence_new`, `src/nx_vgg_affine_dataset.c:77-112`. -/
def vggNew (scan : Bytes → Option (D × Bytes)) (junk zero one : D) (files : Files) (dirs : Bytes → Bool) (base name : Bytes) :
    Res (VggSeq D) :=
  if ¬ dirs base then .fatal
  else if ¬ vggKnown name then .fatal
  else if ¬ dirs (vggDir base name) then .fatal
  else do
    let h ← vggTruth scan junk zero one files base name 6
    pure ⟨base, name, 6, h⟩

/-- `nx_vgg_affine_sequence_free`, `src/nx_vgg_affine_dataset.c:114-124`: the matrices that are freed, by their places. -/
def vggFree (q : VggSeq D) : Res (List Nat) :=
  forLoop q.length (fun i fr => do
    let _ ← readAt q.h i
    pure (fr ++ [i])) 0 []

/-- `nx_vgg_affine_sequence_xload_frame`, `src/nx_vgg_affine_dataset.c:126-149`. -/
def vggLoadFrame (C : Codecs) (junk : Nat → Byte) (files : Files) (q : VggSeq D) (frame : Int) (mode : LoadMode) : Res UImg :=
  if frame < 0 ∨ frame > (q.length : Int) - 1 then .fatal
  else do
    match ← imageLoad C junk (vggFrame q.base q.name (frame.toNat + 1) ".ppm") mode files with
    | some img => pure img
    | none => imageXload C junk (vggFrame q.base q.name (frame.toNat + 1) ".pgm") mode files

end

end Nx
