import Verif.Core

/-!
# Model of the one-dimensional filters, `src/nx_filter.c`

`float` arithmetic is replaced by exact arithmetic on rational numbers. `exp` is an arbitrary
function. Element counts are natural numbers; index computations do not overflow.
-/

namespace Nx

/-- The inner loop of `nx_convolve_sym`, `src/nx_filter.c:108-110`, from `k` on. -/
def convInner (data kernel : List Rat) (nk dk0 k : Nat) (sum : Rat) : Res Rat :=
  if k < nk then do
    let w ← readAt kernel k
    if k ≤ dk0 then do
      let a ← readAt data (dk0 - k)
      let b ← readAt data (dk0 + k)
      convInner data kernel nk dk0 (k + 1) (sum + w * (a + b))
    else .ub
  else pure sum
termination_by nk - k

/-- The outer loop, `src/nx_filter.c:105-112`, from `i` on: the buffer after it. -/
def convOuter (kernel : List Rat) (nk n i : Nat) (data : List Rat) : Res (List Rat) :=
  if i < n then do
    let w ← readAt kernel 0
    let x ← readAt data (i + nk - 1)
    let sum ← convInner data kernel nk (i + nk - 1) 1 (w * x)
    let data ← writeAt data i sum
    convOuter kernel nk n (i + 1) data
  else pure data
termination_by n - i

/-- `nx_convolve_sym`, `src/nx_filter.c:98-113`. -/
def convolveSym (n : Nat) (data : List Rat) (nk : Nat) (kernel : List Rat) : Res (List Rat) :=
  if n > 1 then
    if nk > 1 then convOuter kernel nk n 0 data else .fatal
  else .fatal

/-- The first loop of `nx_convolve_box`, `src/nx_filter.c:122-123`: `j` is `i + n_r`. -/
def boxFirst (nr j : Nat) (data : List Rat) : Res (List Rat) :=
  if j < 2 * nr + 1 then do
    let s ← readAt data 0
    let x ← readAt data j
    let data ← writeAt data 0 (s + x)
    boxFirst nr (j + 1) data
  else pure data
termination_by 2 * nr + 1 - j

/-- The second loop, `src/nx_filter.c:124-128`. -/
def boxSlide (nr n i : Nat) (prev : Rat) (data : List Rat) : Res (List Rat) :=
  if i < n then do
    let di ← readAt data i
    let l ← readAt data (i - 1)
    let r ← readAt data (i + 2 * nr)
    let data ← writeAt data i (l - prev + r)
    boxSlide nr n (i + 1) di data
  else pure data
termination_by n - i

/-- The third loop, `src/nx_filter.c:129-130`. -/
def boxDivide (nr n i : Nat) (data : List Rat) : Res (List Rat) :=
  if i < n then do
    let x ← readAt data i
    let data ← writeAt data i (x / ((2 * nr + 1 : Nat) : Rat))
    boxDivide nr n (i + 1) data
  else pure data
termination_by n - i

/-- `nx_convolve_box`, `src/nx_filter.c:115-131`. -/
def convolveBox (n : Nat) (data : List Rat) (nr : Nat) : Res (List Rat) :=
  if n > 1 then
    if nr ≥ 1 then do
      let prev ← readAt data 0
      let data ← boxFirst nr 1 data
      let data ← boxSlide nr n 1 prev data
      boxDivide nr n 0 data
    else .fatal
  else .fatal

/-- `enum NXBorderMode`, `include/virg/nexus/nx_filter.h:37-41`. -/
inductive BorderMode where
  | zero
  | repeat
  | mirror
deriving DecidableEq, Repr

section
variable {α : Type}

/-- `for (int i = 0; i < m; ++i) buffer[dst i] = v;`, from `i` on; also `memset` to zero. -/
def fillLoop (dst : Nat → Nat) (v : α) (m i : Nat) (buffer : List α) : Res (List α) :=
  if i < m then do
    let buffer ← writeAt buffer (dst i) v
    fillLoop dst v m (i + 1) buffer
  else pure buffer
termination_by m - i

/-- `for (int i = 0; i < m; ++i) buffer[dst i] = buffer[src i];`, from `i` on. -/
def moveLoop (dst : Nat → Nat) (src : Nat → Int) (m i : Nat) (buffer : List α) : Res (List α) :=
  if i < m then do
    let v ← if 0 ≤ src i then readAt buffer (src i).toNat else .ub
    let buffer ← writeAt buffer (dst i) v
    moveLoop dst src m (i + 1) buffer
  else pure buffer
termination_by m - i

/-- `fill_buffer_border`, `src/nx_filter.c:133-158`; `z` is the zero of the elements. -/
def fillBorder (z : α) (n : Nat) (buffer : List α) (nb : Nat) : BorderMode → Res (List α)
  | .zero => do
    let buffer ← fillLoop (fun i => i) z nb 0 buffer
    fillLoop (fun i => n + nb + i) z nb 0 buffer
  | .repeat => do
    let b ← readAt buffer nb
    let buffer ← fillLoop (fun i => i) b nb 0 buffer
    let b ← readAt buffer (nb + n - 1)
    fillLoop (fun i => nb + n + i) b nb 0 buffer
  | .mirror => do
    let buffer ← moveLoop (fun i => i) (fun i => 2 * nb - i) nb 0 buffer
    moveLoop (fun i => nb + n + i) (fun i => nb + n - i - 2) nb 0 buffer

/-- `for (int i = 0; i < n; ++i) buffer[n_border + i] = data[i * stride];`, from `i` on; `conv`
converts an element. -/
def copyLoop {β : Type} (conv : β → α) (data : List β) (stride nb n i : Nat) (buffer : List α) : Res (List α) :=
  if i < n then do
    let v ← readAt data (i * stride)
    let buffer ← writeAt buffer (nb + i) (conv v)
    copyLoop conv data stride nb n (i + 1) buffer
  else pure buffer
termination_by n - i

/-- `nx_filter_copy_to_buffer_uc`, `nx_filter_copy_to_buffer`, `src/nx_filter.c:192-201` and
`234-243`; with stride 1 the functions for consecutive values, `src/nx_filter.c:170-179` and `213-221`. -/
def copyToBuffer {β : Type} (conv : β → α) (z : α) (n : Nat) (buffer : List α) (data : List β) (stride nb : Nat)
    (mode : BorderMode) : Res (List α) :=
  if n > 1 then do
    let buffer ← copyLoop conv data stride nb n 0 buffer
    fillBorder z n buffer nb mode
  else .fatal
end

/-- The second loop of `nx_kernel_sym_gaussian`, `src/nx_filter.c:79-82`, from `i` on: kernel
and sum; `g i` is the value of the Gaussian. -/
def kernelFill (g : Nat → Rat) (nk i : Nat) (kernel : List Rat) (sum : Rat) : Res (List Rat × Rat) :=
  if i < nk then do
    let kernel ← writeAt kernel i (g i)
    let k ← readAt kernel i
    kernelFill g nk (i + 1) kernel (sum + 2 * k)
  else pure (kernel, sum)
termination_by nk - i

/-- The loop dividing by the sum, `src/nx_filter.c:84-86`. -/
def kernelScale (nk i : Nat) (kernel : List Rat) (sum : Rat) : Res (List Rat) :=
  if i < nk then do
    let k ← readAt kernel i
    let kernel ← writeAt kernel i (k / sum)
    kernelScale nk (i + 1) kernel sum
  else pure kernel
termination_by nk - i

/-- `nx_kernel_sym_gaussian`, `src/nx_filter.c:71-87`. -/
def kernelSym (g : Nat → Rat) (nk : Nat) (kernel : List Rat) : Res (List Rat) :=
  if nk > 1 then do
    let kernel ← writeAt kernel 0 (g 0)
    let s ← readAt kernel 0
    let r ← kernelFill g nk 1 kernel s
    kernelScale nk 0 r.1 r.2
  else .fatal

/-- `nx_kernel_size_gaussian`, `src/nx_filter.c:48-54`; `t` is the truncated value of
`2.0 * kernel_truncation_factor * sigma + 1.0f`. -/
def kernelSize (t : Int) : Int :=
  let n := if t.tmod 2 = 0 then t + 1 else t
  if n > 3 then n else 3

end Nx
