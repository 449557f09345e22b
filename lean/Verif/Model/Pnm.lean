import Verif.Model.CNum
import Verif.Model.Sample

/-!
# Model of `src/nx_image_io_pnm.c`

8-bit images. Files are byte lists; opening, writing and closing files does not fail.
What a resized image contains before it is written is arbitrary (`junk`).
-/

namespace Nx

/-- `struct NXImage` with data type `NX_IMAGE_UCHAR`, `include/virg/nexus/nx_image.h:50-65`;
`rgba` tells whether the type is `NX_IMAGE_RGBA` (else grayscale). -/
structure UImg where
  rgba : Bool
  width : Nat
  height : Nat
  stride : Nat
  data : Bytes
deriving DecidableEq, Repr

/-- `nx_image_n_channels`, `include/virg/nexus/nx_image.h:120-127`. -/
def channels (rgba : Bool) : Nat := if rgba then 4 else 1

/-- `nx_image_resize` with the default stride, `src/nx_image.c:119-153`: the stride of an
image is never the default value -1, so the image always changes. Negative sizes fail an
assertion, sizes are computed in `int`. -/
def uResize (junk : Nat → Byte) (rgba : Bool) (w h : Int) : Res UImg :=
  if w < 0 ∨ h < 0 then .fatal
  else if channels rgba * w.toNat ≤ 2147483647 ∧ channels rgba * w.toNat * h.toNat ≤ 2147483647 then
    .ok ⟨rgba, w.toNat, h.toNat, channels rgba * w.toNat,
      (List.range (channels rgba * w.toNat * h.toNat)).map junk⟩
  else .ub

/-- Reading `n` consecutive bytes. -/
def readBlock (a : Bytes) (i n : Nat) : Res Bytes := if i + n ≤ a.length then .ok ((a.drop i).take n) else .ub

/-- One `fwrite` of `save_as_pnm`. -/
def saveUnit (img : UImg) (off k : Nat) (out : Bytes) : Res Bytes := do
  let b ← readBlock img.data off k
  pure (out ++ b)

/-- `save_as_pnm`, `src/nx_image_io_pnm.c:35-63`. -/
def savePnm (img : UImg) : Res Bytes :=
  if img.rgba then
    forLoop img.height (fun y out => forLoop img.width (fun x out => saveUnit img (y * img.stride + 4 * x) 3 out) 0 out) 0
      ([80, 54, 10] ++ intText img.width ++ [32] ++ intText img.height ++ [10] ++ intText 255 ++ [10])
  else
    forLoop img.height (fun y out => saveUnit img (y * img.stride) img.width out) 0
      ([80, 53, 10] ++ intText img.width ++ [32] ++ intText img.height ++ [32] ++ intText 255 ++ [10])

/-- `nx_rgb_to_gray_uc`, `include/virg/nexus/nx_colorspace.h:34-44`. The literals `0.3f`,
`0.59f` and `0.11f` are 40265320, 79188456 and 14763950 times 2^-27; products and sums are
rounded to `float`; the sum is truncated and clamped. -/
def grayUc (r g b : Byte) : Byte :=
  let v := round24 (round24 (round24 (r.toNat * 40265320) + round24 (g.toNat * 79188456))
    + round24 (b.toNat * 14763950)) / 134217728
  if v > 255 then 255 else UInt8.ofNat v

/-- Data of the image and rest of the file while reading; `none` after a short read, when
the function has returned `NX_FAIL`. -/
abbrev LoadState := Option (Bytes × Bytes)

/-- One `fread` of `k` bytes, converted and stored at `off`. -/
def loadUnit (k : Nat) (conv : Bytes → Bytes) (off : Nat) : LoadState → Res LoadState
  | none => .ok none
  | some (d, rest) =>
    if rest.length < k then .ok none
    else do
      let d ← writeBlock d off (conv (rest.take k))
      pure (some (d, rest.drop k))

/-- Conversion of one gray byte to four channels, `src/nx_image_io_pnm.c:125-128`. -/
def grayToRgba : Bytes → Bytes
  | [v] => [v, v, v, 255]
  | _ => []

/-- Conversion of three bytes to gray, `src/nx_image_io_pnm.c:142`. -/
def rgbToGray : Bytes → Bytes
  | [r, g, b] => [grayUc r g b]
  | _ => []

/-- Three bytes and an opaque alpha, `src/nx_image_io_pnm.c:149-151`. -/
def rgbToRgba : Bytes → Bytes
  | [r, g, b] => [r, g, b, 255]
  | _ => []

/-- The image read, `none` for `NX_FAIL`. -/
def loadResult (img : UImg) : LoadState → Option UImg
  | none => none
  | some (d, _) => some { img with data := d }

/-- The loops of `read_pnm_data`, `src/nx_image_io_pnm.c:110-156`. -/
def readPixels (img : UImg) (pnmRgba : Bool) (st : LoadState) : Res LoadState :=
  match pnmRgba, img.rgba with
  | false, false => forLoop img.height (fun y st => loadUnit img.width id (y * img.stride) st) 0 st
  | false, true => forLoop img.height (fun y st =>
      forLoop img.width (fun x st => loadUnit 1 grayToRgba (y * img.stride + 4 * x) st) 0 st) 0 st
  | true, false => forLoop img.height (fun y st =>
      forLoop img.width (fun x st => loadUnit 3 rgbToGray (y * img.stride + x) st) 0 st) 0 st
  | true, true => forLoop img.height (fun y st =>
      forLoop img.width (fun x st => loadUnit 3 rgbToRgba (y * img.stride + 4 * x) st) 0 st) 0 st

/-- `read_pnm_data`, `src/nx_image_io_pnm.c:101-159`. -/
def readPnmData (junk : Nat → Byte) (rgba : Bool) (w h : Int) (pnmRgba : Bool) (rest : Bytes) : Res (Option UImg) := do
  let img ← uResize junk rgba w h
  let st ← readPixels img pnmRgba (some (img.data, rest))
  pure (loadResult img st)

/-- The `%d` conversion of `fscanf`, ISO C11 7.21.6.2: `none` for a matching or input
failure; undefined when the value is no `int`. -/
def scanInt (s : Bytes) : Res (Option (Int × Bytes)) :=
  let sg := takeSign (s.dropWhile isSpaceB)
  let ds := sg.2.takeWhile (isDigitB 10)
  if ds = [] then .ok none
  else
    let v : Int := if sg.1 then -(digitsVal 10 0 ds : Int) else digitsVal 10 0 ds
    if InI32 v then .ok (some (v, sg.2.dropWhile (isDigitB 10))) else .ub

/-- The rest of `fscanf(pnm, "%d %d %d", …)` once two numbers are read. -/
def scanThird (a b : Int) : Option (Int × Bytes) → Option ((Int × Int × Int) × Bytes)
  | none => none
  | some (c, s) => some ((a, b, c), s)

/-- The rest once one number is read. -/
def scanSecond (a : Int) : Option (Int × Bytes) → Res (Option ((Int × Int × Int) × Bytes))
  | none => .ok none
  | some (b, s) => do
    let r ← scanInt (s.dropWhile isSpaceB)
    pure (scanThird a b r)

/-- The rest once the first number is tried. -/
def scanFirst : Option (Int × Bytes) → Res (Option ((Int × Int × Int) × Bytes))
  | none => .ok none
  | some (a, s) => do
    let r ← scanInt (s.dropWhile isSpaceB)
    scanSecond a r

/-- `fscanf(pnm, "%d %d %d", &w, &h, &levels)`; a space in the format skips white space. -/
def scan3 (s : Bytes) : Res (Option ((Int × Int × Int) × Bytes)) := do
  let r ← scanInt s
  scanFirst r

/-- `fgets(buffer, 256, pnm)`: the rest of the file, `none` for `NULL`. -/
def fgets256 (s : Bytes) : Option Bytes :=
  if s = [] then none
  else
    let line := s.takeWhile (· != 10)
    if line.length < 255 then some (s.drop (line.length + 1)) else some (s.drop 255)

/-- `enum NXImageLoadMode`, `include/virg/nexus/nx_image_io_params.h:33-37`. -/
inductive LoadMode where
  | gray | rgba | asIs
deriving DecidableEq, Repr

/-- Type of the loaded image, `src/nx_image_io_pnm.c:208-219`. -/
def modeType (mode : LoadMode) (pnmRgba : Bool) : Bool :=
  match mode with
  | .gray => false
  | .rgba => true
  | .asIs => pnmRgba

/-- The two characters of the header: does the file hold colour, and what follows;
`src/nx_image_io_pnm.c:169-185` and `:241-263`. -/
def pnmMagic : Bytes → Option (Bool × Bytes)
  | 80 :: 53 :: r => some (false, r)
  | 80 :: 54 :: r => some (true, r)
  | _ => none

/-- White space skipped by the first loop of `nx_image_xload_pnm`, `:187-190`. -/
def isPnmSpace (b : Byte) : Bool := b == 32 || b == 10 || b == 9

/-- Skipping comment lines, `src/nx_image_io_pnm.c:192-200`; the list starts with the
character `c`. The end of the file inside a comment is fatal. -/
def skipComments (s : Bytes) : Res Bytes :=
  if s.head? = some 35 then
    if h : (10 : Byte) ∈ s then skipComments ((s.dropWhile (· != 10)).drop 1) else .fatal
  else .ok s
termination_by s.length
decreasing_by
  have h1 : (s.dropWhile (· != 10)).length ≤ s.length := (List.dropWhile_sublist _).length_le
  have h3 : 0 < (s.dropWhile (· != 10)).length := by
    have : ∀ l : Bytes, (10 : Byte) ∈ l → 0 < (l.dropWhile (· != 10)).length := by
      intro l hl
      induction l with
      | nil => cases hl
      | cons a l ih =>
        rw [List.dropWhile_cons]
        by_cases hc : a = 10
        · subst hc
          simp
        · rw [if_pos (by simpa using hc)]
          rcases List.mem_cons.mp hl with e | e
          · exact absurd e.symm hc
          · exact ih e
    exact this s h
  rw [List.length_drop]
  omega

/-- What follows the attributes in `nx_image_xload_pnm`, `src/nx_image_io_pnm.c:205-224`. -/
def xloadData (junk : Nat → Byte) (mode : LoadMode) (pnmRgba : Bool) : Option ((Int × Int × Int) × Bytes) → Res (Option UImg)
  | none => .fatal
  | some ((w, h, _), s) => readPnmData junk (modeType mode pnmRgba) w h pnmRgba (s.drop 1)

/-- Failures are fatal in `nx_image_xload_pnm`. -/
def orFatal {α : Type} : Option α → Res α
  | none => .fatal
  | some a => .ok a

/-- The body of `nx_image_xload_pnm` behind the header. -/
def xloadBody (junk : Nat → Byte) (mode : LoadMode) : Option (Bool × Bytes) → Res UImg
  | none => .fatal
  | some (pnmRgba, s) => do
    let s ← skipComments (s.dropWhile isPnmSpace)
    let a ← scan3 s
    let r ← xloadData junk mode pnmRgba a
    orFatal r

/-- `nx_image_xload_pnm`, `src/nx_image_io_pnm.c:161-227`. -/
def xloadPnm (junk : Nat → Byte) (mode : LoadMode) (file : Bytes) : Res UImg := xloadBody junk mode (pnmMagic file)

/-- Reading the pixels in `nx_image_load_pnm`. -/
def loadRest (junk : Nat → Byte) (mode : LoadMode) (pnmRgba : Bool) (w h : Int) : Option Bytes → Res (Option UImg)
  | none => .ok none
  | some s => readPnmData junk (modeType mode pnmRgba) w h pnmRgba s

/-- What follows the attributes in `nx_image_load_pnm`, `src/nx_image_io_pnm.c:273-300`. -/
def loadData (junk : Nat → Byte) (mode : LoadMode) (pnmRgba : Bool) : Option ((Int × Int × Int) × Bytes) → Res (Option UImg)
  | none => .ok none
  | some ((w, h, _), s) => loadRest junk mode pnmRgba w h (fgets256 s)

/-- The body of `nx_image_load_pnm` behind the header. -/
def loadBody (junk : Nat → Byte) (mode : LoadMode) : Option (Bool × Bytes) → Res (Option UImg)
  | none => .ok none
  | some (pnmRgba, s) => do
    let a ← scan3 s
    loadData junk mode pnmRgba a

/-- `nx_image_load_pnm`, `src/nx_image_io_pnm.c:229-301`: `none` for `NX_FAIL`. -/
def loadPnm (junk : Nat → Byte) (mode : LoadMode) (file : Bytes) : Res (Option UImg) := loadBody junk mode (pnmMagic file)

end Nx
