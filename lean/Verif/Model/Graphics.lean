import Verif.Model.ImageConv
import Verif.Model.Homography
import Verif.Model.Ledger

/-!
# Model of graphics contexts and of drawing on images: `src/nx_gc_cairo_imp.c`, `src/vg_image_annotator.cc`

The library cairo is modelled by what its manual says about the calls used here: a path with a current point, a source colour, a line
width, and the list of the strokes made so far. Numbers are exact. A relative line without a current point puts the context into an
error state, in which all calls do nothing. Text, fills, dashes, arcs whose second angle is smaller than the first, radii that are
not positive and the pixels covered by a stroke are not modelled; `nx_gc_clear` is modelled for opaque colours.
-/

namespace Nx

/-- A piece of a path: a line, a Bézier curve (start, two control points, end), or an arc (centre, radius, two angles). -/
inductive Seg (K : Type)
  | line (a b : K × K)
  | curve (a c d b : K × K)
  | arc (m : K × K) (r s e : K)
deriving DecidableEq, Repr

/-- Four channels of a colour, `class VGColor`, `include/virg/nexus/vg_color.hpp:33-66`. -/
structure Colour (K : Type) where
  r : K
  g : K
  b : K
  a : K
deriving DecidableEq, Repr

/-- What `cairo_stroke` draws. -/
structure Stroke (K : Type) where
  path : List (Seg K)
  colour : Colour K
  width : K
deriving DecidableEq, Repr

/-- A `cairo_t`: `start` is where the current part of the path begins. -/
structure Cairo (K : Type) where
  path : List (Seg K)
  cur : Option (K × K)
  start : K × K
  src : Colour K
  width : K
  strokes : List (Stroke K)
  err : Bool
deriving DecidableEq, Repr

section
variable {K : Type}

/-- Every call on a context in the error state does nothing. -/
def Cairo.op (c : Cairo K) (f : Cairo K → Cairo K) : Cairo K := if c.err then c else f c

/-- `cairo_new_path`. -/
def cairoNewPath (c : Cairo K) : Cairo K := c.op fun c => { c with path := [], cur := none }

/-- `cairo_move_to`. -/
def cairoMoveTo (c : Cairo K) (p : K × K) : Cairo K := c.op fun c => { c with cur := some p, start := p }

/-- `cairo_line_to`; without a current point it is `cairo_move_to`. -/
def cairoLineTo (c : Cairo K) (p : K × K) : Cairo K := c.op fun c =>
  match c.cur with
  | none => { c with cur := some p, start := p }
  | some a => { c with path := c.path ++ [.line a p], cur := some p }

/-- `cairo_curve_to`: first control point, second control point, end. Without a current point it begins at the first control
point. -/
def cairoCurveTo (c : Cairo K) (p q e : K × K) : Cairo K := c.op fun c =>
  match c.cur with
  | none => { c with path := c.path ++ [.curve p p q e], cur := some e, start := p }
  | some a => { c with path := c.path ++ [.curve a p q e], cur := some e }

/-- `cairo_close_path`. -/
def cairoClosePath (c : Cairo K) : Cairo K := c.op fun c =>
  match c.cur with
  | none => c
  | some a => { c with path := c.path ++ [.line a c.start], cur := some c.start }

/-- `cairo_stroke`; an empty path draws nothing. -/
def cairoStroke (c : Cairo K) : Cairo K := c.op fun c =>
  { c with
    strokes := if c.path.isEmpty then c.strokes else c.strokes ++ [⟨c.path, c.src, c.width⟩]
    path := []
    cur := none }

/-- `cairo_set_source_rgba`. -/
def cairoSetSource (c : Cairo K) (r g b a : K) : Cairo K := c.op fun c => { c with src := ⟨r, g, b, a⟩ }

/-- `cairo_set_line_width`. -/
def cairoSetLineWidth (c : Cairo K) (w : K) : Cairo K := c.op fun c => { c with width := w }

variable [Field K]

/-- `cairo_rel_move_to`. -/
def cairoRelMoveTo (c : Cairo K) (d : K × K) : Cairo K := c.op fun c =>
  match c.cur with
  | none => { c with err := true }
  | some a => { c with cur := some (a.1 + d.1, a.2 + d.2), start := (a.1 + d.1, a.2 + d.2) }

/-- `cairo_rel_line_to`. -/
def cairoRelLineTo (c : Cairo K) (d : K × K) : Cairo K := c.op fun c =>
  match c.cur with
  | none => { c with err := true }
  | some a => { c with path := c.path ++ [.line a (a.1 + d.1, a.2 + d.2)], cur := some (a.1 + d.1, a.2 + d.2) }

/-- `cairo_rectangle`. -/
def cairoRectangle (c : Cairo K) (x y w h : K) : Cairo K :=
  cairoClosePath (cairoRelLineTo (cairoRelLineTo (cairoRelLineTo (cairoMoveTo c (x, y)) (w, 0)) (0, h)) (-w, 0))

/-- `cairo_arc`, joined to the current point by a line; `cs t` is cosine and sine of `t`. -/
def cairoArc (cs : K → K × K) (c : Cairo K) (m : K × K) (r s e : K) : Cairo K :=
  let c := cairoLineTo c (m.1 + r * (cs s).1, m.2 + r * (cs s).2)
  c.op fun c => { c with path := c.path ++ [.arc m r s e], cur := some (m.1 + r * (cs e).1, m.2 + r * (cs e).2) }

/-- `struct NXGC`, `src/nx_gc_cairo_imp.c:37-42`: whether it draws on an image, and its context. -/
structure Gc (K : Type) where
  image : Bool
  c : Cairo K
deriving DecidableEq, Repr

/-- `nx_gc_set_color`, `src/nx_gc_cairo_imp.c:200-211`. -/
def gcSetColour (g : Gc K) (k : Colour K) : Gc K :=
  { g with c := if g.image then cairoSetSource g.c k.b k.g k.r k.a else cairoSetSource g.c k.r k.g k.b k.a }

/-- `nx_gc_new`, `nx_gc_new_pdf`, `nx_gc_new_svg` with `set_initial_properties`, `src/nx_gc_cairo_imp.c:44-139`. The line width of a
new context is 2. -/
def gcNew (image : Bool) : Gc K := gcSetColour ⟨image, ⟨[], none, (0, 0), ⟨0, 0, 0, 1⟩, 2, [], false⟩⟩ ⟨0, 0, 0, 1⟩

/-- `nx_gc_new_path`, `src/nx_gc_cairo_imp.c:164-171`. -/
def gcNewPath (g : Gc K) : Gc K := { g with c := cairoNewPath g.c }

/-- `nx_gc_stroke`, `src/nx_gc_cairo_imp.c:173-180`. -/
def gcStroke (g : Gc K) : Gc K := { g with c := cairoStroke g.c }

/-- `nx_gc_set_line_width`, `src/nx_gc_cairo_imp.c:213-220`. -/
def gcSetLineWidth (g : Gc K) (w : K) : Gc K := { g with c := cairoSetLineWidth g.c w }

/-- `nx_gc_move_to`, `src/nx_gc_cairo_imp.c:232-239`. -/
def gcMoveTo (g : Gc K) (x y : K) : Gc K := { g with c := cairoMoveTo g.c (x, y) }

/-- `nx_gc_line_to`, `src/nx_gc_cairo_imp.c:241-248`. -/
def gcLineTo (g : Gc K) (x y : K) : Gc K := { g with c := cairoLineTo g.c (x, y) }

/-- `nx_gc_rel_move_to`, `src/nx_gc_cairo_imp.c:250-257`. -/
def gcRelMoveTo (g : Gc K) (x y : K) : Gc K := { g with c := cairoRelMoveTo g.c (x, y) }

/-- `nx_gc_rel_line_to`, `src/nx_gc_cairo_imp.c:259-266`. -/
def gcRelLineTo (g : Gc K) (x y : K) : Gc K := { g with c := cairoRelLineTo g.c (x, y) }

/-- `nx_gc_line`, `src/nx_gc_cairo_imp.c:268-276`. -/
def gcLine (g : Gc K) (xs ys xe ye : K) : Gc K := { g with c := cairoLineTo (cairoMoveTo g.c (xs, ys)) (xe, ye) }

/-- `nx_gc_rectangle`, `src/nx_gc_cairo_imp.c:278-285`. -/
def gcRectangle (g : Gc K) (x y w h : K) : Gc K := { g with c := cairoRectangle g.c x y w h }

/-- `nx_gc_circle`, `src/nx_gc_cairo_imp.c:297-304`; `pi` is `NX_PI`. -/
def gcCircle (cs : K → K × K) (pi : K) (g : Gc K) (x y r : K) : Gc K := { g with c := cairoArc cs g.c (x, y) r 0 (2 * pi) }

/-- `nx_gc_curve_to`, `src/nx_gc_cairo_imp.c:306-314`: the end `e` and the control points are passed on in this order. -/
def gcCurveTo (g : Gc K) (e p q : K × K) : Gc K := { g with c := cairoCurveTo g.c e p q }

/-- `nx_gc_rel_curve_to`, `src/nx_gc_cairo_imp.c:316-324`. -/
def gcRelCurveTo (g : Gc K) (e p q : K × K) : Gc K := { g with c := cairoCurveTo g.c e p q }

/-- `nx_gc_curve`, `src/nx_gc_cairo_imp.c:326-335`. -/
def gcCurve (g : Gc K) (s e p q : K × K) : Gc K := { g with c := cairoCurveTo (cairoMoveTo g.c s) e p q }

/-- `enum MarkType`, `include/virg/nexus/vg_image_annotator.hpp:41-42`. -/
inductive MarkType
  | none
  | point
  | square
  | diamond
  | plus
  | cross
deriving DecidableEq, Repr

/-- The `switch` of `VGImageAnnotator::draw_mark`, `src/vg_image_annotator.cc:63-91`. -/
def markPath (cs : K → K × K) (pi : K) (g : Gc K) (x y size r : K) : MarkType → Gc K
  | .point => gcCircle cs pi g x y r
  | .square => gcRectangle g (x - r) (y - r) size size
  | .diamond => gcRelLineTo (gcRelLineTo (gcRelLineTo (gcRelLineTo (gcMoveTo g x (y - r)) r r) (-r) r) (-r) (-r)) r (-r)
  | .plus => gcRelLineTo (gcMoveTo (gcRelLineTo (gcMoveTo g x (y - r)) 0 size) (x - r) y) size 0
  | .cross => gcRelLineTo (gcMoveTo (gcRelLineTo (gcMoveTo g (x - r) (y - r)) size size) (x + r) (y - r)) (-size) size
  | .none => g

/-- `VGImageAnnotator::draw_mark`, `src/vg_image_annotator.cc:54-94`. -/
def drawMark (cs : K → K × K) (pi : K) (ty : MarkType) (x y size : K) (k : Colour K) (g : Gc K) : Gc K :=
  let g := gcNewPath (gcSetLineWidth (gcSetColour g k) (3 / 2))
  gcStroke (markPath cs pi g x y size (size / 2) ty)

/-- `VGImageAnnotator::draw_edge`, `src/vg_image_annotator.cc:96-112`. -/
def drawEdge (cs : K → K × K) (pi : K) (xs ys xe ye width : K) (k : Colour K) (ty : MarkType) (size : K) (g : Gc K) : Gc K :=
  let g := gcNewPath (gcNewPath (gcSetLineWidth (gcSetColour g k) width))
  let g := gcStroke (gcLine g xs ys xe ye)
  gcStroke (drawMark cs pi ty xe ye size k (drawMark cs pi ty xs ys size k g))

/-- `VGImageAnnotator::draw_roi`, `src/vg_image_annotator.cc:114-125`. -/
def drawRoi (x y w h width : K) (k : Colour K) (g : Gc K) : Gc K :=
  gcStroke (gcRectangle (gcNewPath (gcSetLineWidth (gcSetColour g k) width)) x y w h)

/-- The fields of `struct NXKeypoint` used for drawing, `include/virg/nexus/nx_keypoint.h:35-51`. -/
structure DKey (K : Type) where
  xs : K
  ys : K
  sigma : K
  scale : K
  level : Int
deriving DecidableEq, Repr

/-- `VGImageAnnotator::draw_keypoint`, `src/vg_image_annotator.cc:127-135`. -/
def drawKeypoint (cs : K → K × K) (pi : K) (key : DKey K) (k : Colour K) (g : Gc K) : Gc K :=
  drawMark cs pi .point (key.xs * key.scale) (key.ys * key.scale) (key.sigma * key.scale * 2) k g

/-- `VGImageAnnotator::color_from_keypoint_level`, `src/vg_image_annotator.cc:137-150`, with the colours of
`include/virg/nexus/vg_color.hpp:38-50`; `rnd` is the random colour. -/
def levelColour (rnd : Colour K) (level : Int) : Colour K :=
  if level = 0 then ⟨1, 0, 0, 1⟩
  else if level = 1 then ⟨0, 0, 1, 1⟩
  else if level = 2 then ⟨0, 1, 0, 1⟩
  else if level = 3 then ⟨1, 1, 0, 1⟩
  else if level = 4 then ⟨1, 0, 1, 1⟩
  else if level = 5 then ⟨0, 1, 1, 1⟩
  else if level = 6 then ⟨1, 1, 1, 1⟩
  else rnd

/-- `VGImageAnnotator::draw_keypoints`, `src/vg_image_annotator.cc:152-161`; `rnd i` is the random colour of key `i`. -/
def drawKeypoints (cs : K → K × K) (pi : K) (single : Bool) (rnd : Nat → Colour K) : List (DKey K) → Nat → Gc K → Gc K
  | [], _, g => g
  | key :: l, i, g =>
    drawKeypoints cs pi single rnd l (i + 1)
      (drawKeypoint cs pi key (if single then ⟨1, 1, 1, 1⟩ else levelColour (rnd i) key.level) g)

/-- The body of the second loop of `VGImageAnnotator::create_match_image`, `src/vg_image_annotator.cc:201-210`. -/
def drawMatch (cs : K → K × K) (pi lw : K) (m : PMatch K) (g : Gc K) : Gc K :=
  let g := drawEdge cs pi m.x.1 m.x.2 m.xp.1 m.xp.2 3 ⟨1, 0, 0, 1⟩ .none 0 g
  let g := drawEdge cs pi (m.x.1 + lw) m.x.2 (m.xp.1 + lw) m.xp.2 3 ⟨0, 1, 0, 1⟩ .none 0 g
  let g := drawMark cs pi .diamond m.x.1 m.x.2 10 ⟨1, 0, 0, 1⟩ g
  drawMark cs pi .diamond (m.xp.1 + lw) m.xp.2 10 ⟨0, 1, 0, 1⟩ g

/-- The second loop of `VGImageAnnotator::create_match_image`, `src/vg_image_annotator.cc:198-212`. -/
def drawMatches (cs : K → K × K) (pi lw : K) (onlyInliers : Bool) : List (PMatch K) → Gc K → Gc K
  | [], g => g
  | m :: l, g => drawMatches cs pi lw onlyInliers l (if !onlyInliers || m.inlier then drawMatch cs pi lw m g else g)

end

/-- `nx_image_convert_type` for bytes, `src/nx_image.c:350-381`; `debug` says whether assertions are checked
(`include/virg/nexus/nx_assert.h:34-43`). -/
def toRgbaImage (debug : Bool) (junk : Nat → Byte) (img : SImg Byte) : Res (SImg Byte) :=
  if debug then convertType junk 255 (fun r _ _ => r) img true else convertTypeMain junk 255 (fun r _ _ => r) img true

/-- `memcpy` of a row of the first loop of `VGImageAnnotator::create_match_image`, `src/vg_image_annotator.cc:186-194`, if there is
such a row in `img`; `off` is where it goes to in `d`. -/
def copyRow (img : SImg Byte) (y off : Nat) (d : Bytes) : Res Bytes :=
  if y < img.height then do
    let b ← readBlock img.data (y * img.stride) (img.width * 4)
    writeBlock d off b
  else .ok d

/-- The images of `VGImageAnnotator::create_match_image` next to each other, `src/vg_image_annotator.cc:168-195`. -/
def matchCanvas (debug : Bool) (junk : Nat → Byte) (l r : SImg Byte) : Res (SImg Byte) := do
  let lc ← toRgbaImage debug junk l
  let rc ← toRgbaImage debug junk r
  let c ← sResize junk true (l.width + r.width) (max l.height r.height)
  let d ← forLoop c.height (fun y d => do
    let d ← copyRow lc y (y * c.stride) d
    copyRow rc y (y * c.stride + l.width * 4) d) 0 (List.replicate c.data.length 0)
  pure { c with data := d }

/-- `VGImageAnnotator::create_match_image`, `src/vg_image_annotator.cc:163-215`: the canvas before drawing, and the context. The
canvas is a copy of the combined image converted to RGBA, `:40-43`. -/
def createMatchImage {K : Type} [Field K] (debug : Bool) (junk : Nat → Byte) (cs : K → K × K) (pi : K) (l r : SImg Byte)
    (corr : List (PMatch K)) (onlyInliers : Bool) : Res (SImg Byte × Gc K) := do
  let c ← matchCanvas debug junk l r
  let c ← toRgbaImage debug junk c
  pure (c, drawMatches cs pi (l.width : K) onlyInliers corr (gcNew true))

/-- The four bytes of a pixel of `CAIRO_FORMAT_ARGB32` painted with an opaque colour: a 32-bit number in the byte order of the
machine with alpha in the upper 8 bits, then red, green and blue; `q` makes a byte of a channel. -/
def argbBytes {K : Type} (q : K → Byte) (little : Bool) (k : Colour K) : List Byte :=
  if little then [q k.b, q k.g, q k.r, q k.a] else [q k.a, q k.r, q k.g, q k.b]

/-- `cairo_paint` of one pixel of a row. -/
def paintPixel (bs : List Byte) (stride y x : Nat) (d : Bytes) : Res Bytes := writeBlock d (y * stride + 4 * x) bs

/-- `nx_gc_clear`, `src/nx_gc_cairo_imp.c:155-162`, on an image, when the colour is opaque. -/
def gcClear {K : Type} (q : K → Byte) (little : Bool) (g : Gc K) (img : SImg Byte) : Res (SImg Byte) := do
  let d ← forLoop img.height (fun y d => forLoop img.width (paintPixel (argbBytes q little g.c.src) img.stride y) 0 d) 0 img.data
  pure { img with data := d }

/-- The memory of a `VGImageAnnotator`, `include/virg/nexus/vg_image_annotator.hpp:70-73`: the image and its pixels, and the `NXGC`,
whose surface uses the pixels `data`. -/
structure AnnMem where
  img : Nat
  pix : Nat
  gc : Nat
  data : Nat
deriving DecidableEq, Repr

/-- `VGImageAnnotator::VGImageAnnotator`, `src/vg_image_annotator.cc:40-43`, for a grayscale image with pixels: the copy, whose pixels
are replaced by larger ones, and `nx_gc_new`, `src/nx_gc_cairo_imp.c:52-85`. -/
def annNew (σ : Mem) : Res (Mem × AnnMem) := do
  let (σ, i) := memAlloc σ
  let (σ, p0) := memAlloc σ
  let (σ, t) := memAlloc σ
  let σ ← memFree σ (some p0)
  let (σ, p) := memAlloc σ
  memUse σ t
  let σ ← memFree σ (some t)
  let (σ, g) := memAlloc σ
  pure (σ, ⟨i, p, g, p⟩)

/-- `nx_gc_free`, `src/nx_gc_cairo_imp.c:141-152`. By the manual of cairo the pixels given to
`cairo_image_surface_create_for_data` have to be there until the surface is destroyed. -/
def annFreeGc (σ : Mem) (g data : Nat) : Res Mem := do
  memUse σ data
  memFree σ (some g)

/-- The destructor: members in reverse order. -/
def annFree (σ : Mem) (a : AnnMem) : Res Mem := do
  let σ ← annFreeGc σ a.gc a.data
  let σ ← memFree σ (some a.pix)
  memFree σ (some a.img)

/-- `VGImageAnnotator::set_image`, `src/vg_image_annotator.cc:45-51`: the old canvas goes first, then its context. `shared` says
whether another `VGImage` refers to the old canvas, which then stays. -/
def annSetImage (σ : Mem) (a : AnnMem) (shared : Bool) : Res (Mem × AnnMem) := do
  let (σ, i) := memAlloc σ
  let (σ, p0) := memAlloc σ
  let σ ← if shared then pure σ else do
    let σ ← memFree σ (some a.pix)
    memFree σ (some a.img)
  let (σ, t) := memAlloc σ
  let σ ← memFree σ (some p0)
  let (σ, p) := memAlloc σ
  memUse σ t
  let σ ← memFree σ (some t)
  let (σ, g) := memAlloc σ
  let σ ← annFreeGc σ a.gc a.data
  pure (σ, ⟨i, p, g, p⟩)

end Nx
