import Verif.Model.Pnm
import Verif.Model.Ledger

/-!
# Model of `src/nx_image_io_png.c` and `src/nx_image_io_jpeg.c`

The libraries are modelled by what they document. A PNG file has a colour type, pixels and possibly a `tRNS` chunk; samples
are those after the reduction to 8 bits, interlaced files are read like others. Which transformations of libpng act on a
row, and in which order (`png_do_read_transformations`: expansion, removal of alpha, gray from colour, colour from gray,
filler), is part of the model; the gray value that it computes is a parameter. A JPEG file has a colour space and decoded
samples. Both libraries may fail while reading any row: then they jump back, and the function returns `NX_FAIL`. The
allocations of the library are one block each for their structures. Images have 8-bit samples.
-/

namespace Nx

/-- Colour types of PNG. -/
inductive PngColour
  | gray
  | ga
  | rgb
  | rgba
  | palette
deriving DecidableEq, Repr

/-- A pixel of a file: for gray types the value is `r`; `a` counts where a file has alpha. -/
structure PngPx where
  r : Byte
  g : Byte
  b : Byte
  a : Byte
deriving DecidableEq, Repr

/-- A PNG file; `header` tells whether it can be read up to the pixels, and `rows` rows of pixels can be read. -/
structure PngFile where
  header : Bool
  width : Nat
  height : Nat
  colour : PngColour
  trns : Bool
  px : Nat → Nat → PngPx
  rows : Nat

/-- A pixel in a row of libpng. -/
inductive PngPix
  | gray (v : Byte)
  | ga (v a : Byte)
  | rgb (r g b : Byte)
  | rgba (r g b a : Byte)
deriving DecidableEq, Repr

/-- The transformations that are asked for besides `png_set_expand`. -/
structure PngFlags where
  stripAlpha : Bool
  toGray : Bool
  toRgb : Bool
  addAlpha : Bool
deriving DecidableEq, Repr

/-- `png_set_expand`: palettes become colours, the `tRNS` chunk becomes alpha. -/
def pngExpand (c : PngColour) (trns : Bool) (p : PngPx) : PngPix :=
  match c with
  | .gray => if trns then .ga p.r p.a else .gray p.r
  | .ga => .ga p.r p.a
  | .rgba => .rgba p.r p.g p.b p.a
  | .rgb => if trns then .rgba p.r p.g p.b p.a else .rgb p.r p.g p.b
  | .palette => if trns then .rgba p.r p.g p.b p.a else .rgb p.r p.g p.b

/-- `png_set_strip_alpha`. -/
def pngStrip : PngPix → PngPix
  | .ga v _ => .gray v
  | .rgba r g b _ => .rgb r g b
  | p => p

/-- `png_set_rgb_to_gray_fixed`. -/
def pngToGray (lum : Byte → Byte → Byte → Byte) : PngPix → PngPix
  | .rgb r g b => .gray (lum r g b)
  | .rgba r g b a => .ga (lum r g b) a
  | p => p

/-- `png_set_gray_to_rgb`. -/
def pngToRgb : PngPix → PngPix
  | .gray v => .rgb v v v
  | .ga v a => .rgba v v v a
  | p => p

/-- `png_set_add_alpha` with 255 after the colour. -/
def pngFill : PngPix → PngPix
  | .gray v => .ga v 255
  | .rgb r g b => .rgba r g b 255
  | p => p

/-- The transformations in the order of libpng. -/
def pngTransform (lum : Byte → Byte → Byte → Byte) (f : PngFlags) (p : PngPix) : PngPix :=
  let p := if f.stripAlpha then pngStrip p else p
  let p := if f.toGray then pngToGray lum p else p
  let p := if f.toRgb then pngToRgb p else p
  if f.addAlpha then pngFill p else p

/-- The samples of a pixel. -/
def PngPix.bytes : PngPix → Bytes
  | .gray v => [v]
  | .ga v a => [v, a]
  | .rgb r g b => [r, g, b]
  | .rgba r g b a => [r, g, b, a]

/-- The transformations and the type of the image, `src/nx_image_io_png.c:151-185`. -/
def pngSetup (mode : LoadMode) (c : PngColour) : PngFlags × Bool :=
  let strip := c == .ga
  match mode with
  | .gray => (⟨true, true, false, false⟩, false)
  | .rgba =>
    if c = .gray ∨ c = .ga then (⟨strip, false, true, true⟩, true)
    else (⟨strip, false, false, false⟩, true)
  | .asIs =>
    (⟨strip, false, false, decide (c = .rgb ∨ c = .palette)⟩, !decide (c = .gray ∨ c = .ga))

/-- A row of libpng. -/
def pngRow (lum : Byte → Byte → Byte → Byte) (f : PngFlags) (file : PngFile) (y : Nat) : Bytes :=
  (List.range file.width).flatMap (fun x => (pngTransform lum f (pngExpand file.colour file.trns (file.px y x))).bytes)

/-- The rows that are stored by `png_read_image` through the row pointers, `src/nx_image_io_png.c:196-201`. -/
def pngRows (lum : Byte → Byte → Byte → Byte) (f : PngFlags) (file : PngFile) (stride n : Nat) (d : Bytes) : Res Bytes :=
  forLoop n (fun y d => writeBlock d (y * stride) (pngRow lum f file y)) 0 d

/-- The image that rows are read to, `src/nx_image_io_png.c:187-193`. -/
def pngTarget (junk : Nat → Byte) (img : UImg) (file : PngFile) (rgba : Bool) : Res UImg :=
  if file.width ≠ img.width ∨ file.height ≠ img.height ∨ rgba ≠ img.rgba then uResize junk rgba file.width file.height
  else .ok img

/-- `load_as_png`, `src/nx_image_io_png.c:113-207`: the memory, the image, and whether the result is `NX_OK`. -/
def loadPng8 (lum : Byte → Byte → Byte → Byte) (junk : Nat → Byte) (σ : Mem) (mode : LoadMode) (file : PngFile) (img : UImg) :
    Res (Mem × UImg × Bool) := do
  let png := memAlloc σ
  let info := memAlloc png.1
  if file.header = false then do
    let σ ← memFree info.1 (some info.2)
    let σ ← memFree σ (some png.2)
    pure (σ, img, false)
  else do
    let s := pngSetup mode file.colour
    let img ← pngTarget junk img file s.2
    let ptrs := memAlloc info.1
    let d ← pngRows lum s.1 file img.stride (min file.rows img.height) img.data
    let σ ← memFree ptrs.1 (some info.2)
    let σ ← memFree σ (some png.2)
    if file.rows < img.height then pure (σ, { img with data := d }, false)
    else do
      let σ ← memFree σ (some ptrs.2)
      pure (σ, { img with data := d }, true)

/-- A row of an image, as given to libpng: `src/nx_image_io_png.c:98-102`. -/
def pngSaveRow (img : UImg) (y : Nat) (rows : List Bytes) : Res (List Bytes) := do
  let b ← readBlock img.data (y * img.stride) (channels img.rgba * img.width)
  pure (rows ++ [b])

/-- `save_as_png`, `src/nx_image_io_png.c:47-111`, when libpng does not fail: the colour type and the rows. -/
def savePng8 (σ : Mem) (img : UImg) : Res (Mem × PngColour × List Bytes) := do
  let png := memAlloc σ
  let info := memAlloc png.1
  let ptrs := memAlloc info.1
  let rows ← forLoop img.height (pngSaveRow img) 0 []
  let σ ← memFree ptrs.1 (some info.2)
  let σ ← memFree σ (some png.2)
  let σ ← memFree σ (some ptrs.2)
  pure (σ, if img.rgba then .rgba else .gray, rows)

/-- Colour spaces of JPEG files: `rgb` stands for those that are read as RGB; the last has no known meaning. -/
inductive JpegSpace
  | gray
  | rgb
  | cmyk
  | other (n : Nat)
deriving DecidableEq, Repr

/-- A JPEG file; `px y x c` is a sample after the decoding to the default colour space. -/
structure JpegFile where
  header : Bool
  width : Nat
  height : Nat
  space : JpegSpace
  px : Nat → Nat → Nat → Byte
  rows : Nat

/-- The number of components of a colour space. -/
def JpegSpace.comps : JpegSpace → Nat
  | .gray => 1
  | .rgb => 3
  | .cmyk => 4
  | .other n => n

/-- The output colour space, `src/nx_image_io_jpeg.c:176-184`, or nothing where libjpeg has no conversion. -/
def jpegOut (mode : LoadMode) (s : JpegSpace) : Option JpegSpace :=
  match mode with
  | .asIs => some s
  | .gray => if s = .gray ∨ s = .rgb then some .gray else none
  | .rgba => if s = .gray ∨ s = .rgb then some .rgb else none

/-- The samples of a pixel in the output colour space. -/
def jpegPix (lum : Byte → Byte → Byte → Byte) (s out : JpegSpace) (p : Nat → Byte) : Bytes :=
  match s, out with
  | .gray, .rgb => [p 0, p 0, p 0]
  | .rgb, .gray => [lum (p 0) (p 1) (p 2)]
  | _, out => (List.range out.comps).map p

/-- One scan line. -/
def jpegRow (lum : Byte → Byte → Byte → Byte) (file : JpegFile) (out : JpegSpace) (y : Nat) : Bytes :=
  (List.range file.width).flatMap (fun x => jpegPix lum file.space out (file.px y x))

/-- One row of colour, `src/nx_image_io_jpeg.c:199-204`. -/
def jpegCopyRow (buffer : Bytes) (width off : Nat) (d : Bytes) : Res Bytes :=
  forLoop width (fun x d => do
    let b ← readBlock buffer (3 * x) 3
    writeBlock d (off + 4 * x) (rgbToRgba b)) 0 d

/-- The loop over the rows of colour, `src/nx_image_io_jpeg.c:196-205`: the buffer and the data of the image. -/
def jpegColourRows (lum : Byte → Byte → Byte → Byte) (file : JpegFile) (out : JpegSpace) (stride n : Nat) (s : Bytes × Bytes) :
    Res (Bytes × Bytes) :=
  forLoop n (fun y s => do
    let buffer ← writeBlock s.1 0 (jpegRow lum file out y)
    let d ← jpegCopyRow buffer file.width (y * stride) s.2
    pure (buffer, d)) 0 s

/-- The loop over the rows of gray, `src/nx_image_io_jpeg.c:188-191`. -/
def jpegGrayRows (lum : Byte → Byte → Byte → Byte) (file : JpegFile) (stride n : Nat) (d : Bytes) : Res Bytes :=
  forLoop n (fun y d => writeBlock d (y * stride) (jpegRow lum file .gray y)) 0 d

/-- The pixels, `src/nx_image_io_jpeg.c:187-207`; on a failure of libjpeg the buffer is not freed. -/
def jpegPixels (lum : Byte → Byte → Byte → Byte) (junk : Nat → Byte) (σ : Mem) (file : JpegFile) (out : JpegSpace) (img : UImg) :
    Res (Mem × UImg) :=
  let n := min file.rows img.height
  if out = .gray then do
    let d ← jpegGrayRows lum file img.stride n img.data
    pure (σ, { img with data := d })
  else do
    let buffer := memAlloc σ
    let r ← jpegColourRows lum file out img.stride n ((List.range (3 * img.width)).map junk, img.data)
    if file.rows < img.height then pure (buffer.1, { img with data := r.2 })
    else do
      let σ ← memFree buffer.1 (some buffer.2)
      pure (σ, { img with data := r.2 })

/-- `load_as_jpeg`, `src/nx_image_io_jpeg.c:151-213`; the structure on the stack has one block of libjpeg. -/
def loadJpeg8 (lum : Byte → Byte → Byte → Byte) (junk : Nat → Byte) (σ : Mem) (mode : LoadMode) (file : JpegFile) (img : UImg) :
    Res (Mem × UImg × Bool) := do
  let jpeg := memAlloc σ
  if file.header = false then do
    let σ ← memFree jpeg.1 (some jpeg.2)
    pure (σ, img, false)
  else match jpegOut mode file.space with
    | none => do
      let σ ← memFree jpeg.1 (some jpeg.2)
      pure (σ, img, false)
    | some out => do
      let img ← uResize junk (out.comps != 1) file.width file.height
      let r ← jpegPixels lum junk jpeg.1 file out img
      let σ ← memFree r.1 (some jpeg.2)
      pure (σ, r.2, decide (img.height ≤ file.rows))

/-- One row of colour without alpha, `src/nx_image_io_jpeg.c:93-97`. -/
def jpegPackRow (img : UImg) (off : Nat) (buffer : Bytes) : Res Bytes :=
  forLoop img.width (fun x buffer => do
    let b ← readBlock img.data (off + 4 * x) 3
    writeBlock buffer (3 * x) b) 0 buffer

/-- One scan line for libjpeg, `src/nx_image_io_jpeg.c:82-99`: the buffer and the rows. -/
def jpegSaveRow (img : UImg) (y : Nat) (s : Bytes × List Bytes) : Res (Bytes × List Bytes) :=
  if img.rgba then do
    let buffer ← jpegPackRow img (y * img.stride) s.1
    let b ← readBlock buffer 0 (3 * img.width)
    pure (buffer, s.2 ++ [b])
  else do
    let b ← readBlock img.data (y * img.stride) img.width
    pure (s.1, s.2 ++ [b])

/-- `save_as_jpeg`, `src/nx_image_io_jpeg.c:54-112`, when libjpeg does not fail: the number of components and the rows. The
buffer is only used for colour. -/
def saveJpeg8 (junk : Nat → Byte) (img : UImg) : Res (Nat × List Bytes) := do
  let r ← forLoop img.height (jpegSaveRow img) 0 ((List.range (3 * img.width)).map junk, [])
  pure (if img.rgba then 3 else 1, r.2)

end Nx
