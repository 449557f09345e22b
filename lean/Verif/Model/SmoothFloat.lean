import Verif.Model.ImageFilter
import Verif.Model.Fround

/-!
# Model of smoothing in `float` arithmetic, `src/nx_filter.c:71-113`, `src/nx_image.c:946-1053`

As `Verif.Model.Filter` and `Verif.Model.ImageFilter`, but every result of type `float` is rounded: to nearest, ties to even, no
overflow, no contraction of multiplications and additions. The values of the Gaussian functions are `double` numbers `g i`.
-/

namespace Nx

/-- The inner loop of `nx_convolve_sym`, `src/nx_filter.c:108-110`, from `k` on. -/
def convInnerF (data kernel : List Rat) (nk dk0 k : Nat) (sum : Rat) : Res Rat :=
  if k < nk then do
    let w ← readAt kernel k
    if k ≤ dk0 then do
      let a ← readAt data (dk0 - k)
      let b ← readAt data (dk0 + k)
      convInnerF data kernel nk dk0 (k + 1) (f32 (sum + f32 (w * f32 (a + b))))
    else .ub
  else pure sum
termination_by nk - k

/-- The outer loop, `src/nx_filter.c:105-112`, from `i` on: the buffer after it. -/
def convOuterF (kernel : List Rat) (nk n i : Nat) (data : List Rat) : Res (List Rat) :=
  if i < n then do
    let w ← readAt kernel 0
    let x ← readAt data (i + nk - 1)
    let sum ← convInnerF data kernel nk (i + nk - 1) 1 (f32 (w * x))
    let data ← writeAt data i sum
    convOuterF kernel nk n (i + 1) data
  else pure data
termination_by n - i

/-- `nx_convolve_sym`, `src/nx_filter.c:98-113`. -/
def convolveSymF (n : Nat) (data : List Rat) (nk : Nat) (kernel : List Rat) : Res (List Rat) :=
  if n > 1 then
    if nk > 1 then convOuterF kernel nk n 0 data else .fatal
  else .fatal

/-- The first loop of `nx_kernel_sym_gaussian`, `src/nx_filter.c:79-82`, from `i` on: kernel and sum. -/
def kernelFillF (g : Nat → Rat) (nk i : Nat) (kernel : List Rat) (sum : Rat) : Res (List Rat × Rat) :=
  if i < nk then do
    let kernel ← writeAt kernel i (f32 (g i))
    let k ← readAt kernel i
    kernelFillF g nk (i + 1) kernel (f32 (sum + f32 (2 * k)))
  else pure (kernel, sum)
termination_by nk - i

/-- The loop dividing by the sum, `src/nx_filter.c:84-86`. -/
def kernelScaleF (nk i : Nat) (kernel : List Rat) (sum : Rat) : Res (List Rat) :=
  if i < nk then do
    let k ← readAt kernel i
    let kernel ← writeAt kernel i (f32 (k / sum))
    kernelScaleF nk (i + 1) kernel sum
  else pure kernel
termination_by nk - i

/-- `nx_kernel_sym_gaussian`, `src/nx_filter.c:71-87`. -/
def kernelSymF (g : Nat → Rat) (nk : Nat) (kernel : List Rat) : Res (List Rat) :=
  if nk > 1 then do
    let kernel ← writeAt kernel 0 (f32 (g 0))
    let s ← readAt kernel 0
    let r ← kernelFillF g nk 1 kernel s
    kernelScaleF nk 0 r.1 r.2
  else .fatal

/-- `nx_image_smooth`, `src/nx_image.c:946-1053`, with the parameters of `smooth`. -/
def smoothF {α : Type} (conv : α → Rat) (store : Rat → Res α) (junk : Nat → α) (junkB : Nat → Rat) (dest : Option (GImage α))
    (src : GImage α) (tx ty : Int) (gx gy : Nat → Rat) (buffer : Option (List Rat)) : Res (List Rat × GImage α) := do
  let d ← filterDest junk dest src src.width
  let nkx := (kernelSize tx).toNat
  let nky := (kernelSize ty).toNat
  let b := buffer.getD (filterBuffer (max src.width src.height) (max nkx nky / 2) junkB)
  let kernel := (List.range (max nkx nky / 2 + 1)).map junkB
  let kernel ← kernelSymF gx (nkx / 2 + 1) kernel
  let s ← filterRows conv store (fun b => convolveSymF src.width b (nkx / 2 + 1) kernel) src.width src.height (nkx / 2)
    (filterSrc dest src) src.stride d.stride (b, d.data)
  let kernel ← kernelSymF gy (nky / 2 + 1) kernel
  let s ← filterCols conv store (fun b => convolveSymF d.height b (nky / 2 + 1) kernel) d.width d.height (nky / 2) none d.stride d.stride s
  pure (s.1, { d with data := s.2 })

end Nx
