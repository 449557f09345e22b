import Verif.Model.ImageFilter
import Verif.Model.Fround

/-!
# Model of the box filter in `float` arithmetic, `src/nx_filter.c:115-131`, `src/nx_image.c:1055-1185`

As `Verif.Model.Filter` and `Verif.Model.ImageFilter`, but every addition, subtraction and division is rounded to `float`: to
nearest, ties to even, no overflow. Samples are not rounded when they are copied to the buffer: they are `float` numbers or bytes.
-/

namespace Nx

/-- The first loop of `nx_convolve_box`, `src/nx_filter.c:122-123`: `j` is `i + n_r`. -/
def boxFirstF (nr j : Nat) (data : List Rat) : Res (List Rat) :=
  if j < 2 * nr + 1 then do
    let s ← readAt data 0
    let x ← readAt data j
    let data ← writeAt data 0 (f32 (s + x))
    boxFirstF nr (j + 1) data
  else pure data
termination_by 2 * nr + 1 - j

/-- The second loop, `src/nx_filter.c:124-128`. -/
def boxSlideF (nr n i : Nat) (prev : Rat) (data : List Rat) : Res (List Rat) :=
  if i < n then do
    let di ← readAt data i
    let l ← readAt data (i - 1)
    let r ← readAt data (i + 2 * nr)
    let data ← writeAt data i (f32 (f32 (l - prev) + r))
    boxSlideF nr n (i + 1) di data
  else pure data
termination_by n - i

/-- The third loop, `src/nx_filter.c:129-130`: the number of samples is converted to `float`. -/
def boxDivideF (nr n i : Nat) (data : List Rat) : Res (List Rat) :=
  if i < n then do
    let x ← readAt data i
    let data ← writeAt data i (f32 (x / f32 ((2 * nr + 1 : Nat) : Rat)))
    boxDivideF nr n (i + 1) data
  else pure data
termination_by n - i

/-- `nx_convolve_box`, `src/nx_filter.c:115-131`. -/
def convolveBoxF (n : Nat) (data : List Rat) (nr : Nat) : Res (List Rat) :=
  if n > 1 then
    if nr ≥ 1 then do
      let prev ← readAt data 0
      let data ← boxFirstF nr 1 data
      let data ← boxSlideF nr n 1 prev data
      boxDivideF nr n 0 data
    else .fatal
  else .fatal

section
variable {α : Type} (conv : α → Rat) (store : Rat → Res α)

/-- `nx_image_filter_box_x`, `src/nx_image.c:1055-1103`: buffer and destination. -/
def boxXF (junk : Nat → α) (junkB : Nat → Rat) (dest : Option (GImage α)) (src : GImage α) (r : Nat) (buffer : Option (List Rat)) :
    Res (List Rat × GImage α) := do
  let d ← filterDest junk dest src 0
  let b := buffer.getD (filterBuffer src.width r junkB)
  let s ← filterRows conv store (fun b => convolveBoxF src.width b r) src.width src.height r (filterSrc dest src) src.stride d.stride
    (b, d.data)
  pure (s.1, { d with data := s.2 })

/-- `nx_image_filter_box_y`, `src/nx_image.c:1105-1158`. -/
def boxYF (junk : Nat → α) (junkB : Nat → Rat) (dest : Option (GImage α)) (src : GImage α) (r : Nat) (buffer : Option (List Rat)) :
    Res (List Rat × GImage α) := do
  let d ← filterDest junk dest src 0
  let b := buffer.getD (filterBuffer src.height r junkB)
  let s ← filterCols conv store (fun b => convolveBoxF src.height b r) d.width src.height r (filterSrc dest src) src.stride d.stride
    (b, d.data)
  pure (s.1, { d with data := s.2 })

/-- `nx_image_filter_box`, `src/nx_image.c:1160-1185`. -/
def boxXYF (junk : Nat → α) (junkB : Nat → Rat) (dest : Option (GImage α)) (src : GImage α) (rx ry : Nat)
    (buffer : Option (List Rat)) : Res (List Rat × GImage α) := do
  let d ← filterDest junk dest src 0
  let b := buffer.getD (filterBuffer (max src.width src.height) (max rx ry) junkB)
  let s ← boxXF conv store junk junkB (dest.map (fun _ => d)) src rx (some b)
  boxYF conv store junk junkB none s.2 ry (some s.1)

end

end Nx
