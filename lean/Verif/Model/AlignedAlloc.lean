import Verif.Model.Alloc
import Verif.Model.Filter
import Verif.Model.FastThreshold

/-!
# Model of aligned memory for filters, `src/nx_alloc.c:34-59`, `src/nx_filter.c:253-264`, `src/nx_image.c:932-944`

`aligned_alloc` is a parameter. Assertions are on. The alignment is a parameter; the configuration has powers of two.
-/

namespace Nx

/-- `aligned_alloc`. -/
abbrev AlignedMalloc := Nat → Nat → Option (List Byte)

/-- `nx_aligned_alloc`, `src/nx_alloc.c:34-46`: a remainder by zero is undefined. -/
def nxAlignedAlloc (aalloc : AlignedMalloc) (alignment sz : Nat) : Res (Option (List Byte)) :=
  if alignment = 0 then .ub
  else if sz % alignment = 0 then .ok (aalloc alignment sz)
  else .fatal

/-- `nx_xaligned_alloc`, `src/nx_alloc.c:48-59`. -/
def nxXalignedAlloc (aalloc : AlignedMalloc) (alignment sz : Nat) : Res (List Byte) :=
  if alignment = 0 then .ub
  else if sz % alignment = 0 then
    match aalloc alignment sz with
    | some ptr => .ok ptr
    | none => .fatal
  else .fatal

/-- The number of bytes, `src/nx_filter.c:257-259`. -/
def alignedSize (alignment l : Nat) : Nat :=
  let sz := mulSize l 4
  if sz % alignment ≠ 0 then mulSize ((sz / alignment + 1) % 2 ^ 64) alignment else sz

/-- `nx_filter_buffer_alloc`, `src/nx_filter.c:253-264`, with SIMD instructions: the number of elements is an `int`. -/
def filterBufferAlloc (aalloc : AlignedMalloc) (alignment : Nat) (n nb : Int) : Res (List Byte) :=
  if InI32 (2 * nb) ∧ InI32 (n + 2 * nb) then
    if alignment = 0 then .ub
    else nxXalignedAlloc aalloc alignment (alignedSize alignment (toSize (n + 2 * nb)))
  else .ub

/-- `nx_image_filter_buffer_alloc`, `src/nx_image.c:932-944`: `tx` and `ty` are the truncated values of
`2.0 * kernel_truncation_factor * sigma + 1.0f`. Block and both sizes of the kernels. -/
def imageFilterBufferAlloc (aalloc : AlignedMalloc) (alignment : Nat) (width height tx ty : Int) : Res (List Byte × Int × Int) := do
  let nkx := kernelSize tx
  let nky := kernelSize ty
  let b ← filterBufferAlloc aalloc alignment (max width height) ((max nkx nky).tdiv 2)
  pure (b, nkx, nky)

end Nx
