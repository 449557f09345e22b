import Verif.Core

/-!
# Model of the text conversions in `src/nx_string.c` and `src/nx_io.c`
-/

namespace Nx

/-- `*(p++) = b` into an allocation of `cap` bytes of which `out` have been
written (the pattern used throughout `src/nx_string.c:149-208`). -/
def push (cap : Nat) (out : Bytes) (b : Byte) : Res Bytes :=
  if out.length < cap then .ok (out ++ [b]) else .ub

/-- One character of `nx_fputs_readable`, `src/nx_io.c:116-127`. -/
def readableChar (c : Byte) : Bytes :=
  if c = 10 then [92, 110]        -- \n
  else if c = 13 then [92, 114]   -- \r
  else if c = 9 then [92, 116]    -- \t
  else if c = 8 then [92, 98]     -- \b
  else if c = 12 then [92, 102]   -- \f
  else if c = 34 then [92, 34]    -- \"
  else if c = 92 then [92, 92]    -- \\
  else [c]

/-- The loop of `nx_fputs_readable`, `src/nx_io.c:115-130`: bytes sent to the
stream between the quotes. Stream errors are not modelled. -/
def readableBody : Bytes → Bytes
  | [] => []
  | c :: s => readableChar c ++ readableBody s

/-- `nx_fputs_readable`, `src/nx_io.c:104-135`: bytes sent to the stream;
`none` is the NULL string. -/
def fputsReadable : Option Bytes → Bytes
  | none => [110, 117, 108, 108]   -- null
  | some s => [34] ++ readableBody s ++ [34]

/-- The switch of `nx_xstr_from_readable`, `src/nx_string.c:163-173`. -/
def unescapeChar (d : Byte) : Option Byte :=
  if d = 114 then some 13         -- r
  else if d = 116 then some 9     -- t
  else if d = 110 then some 10    -- n
  else if d = 92 then some 92     -- \
  else if d = 102 then some 12    -- f
  else if d = 98 then some 8      -- b
  else if d = 34 then some 34     -- "
  else none

/-- The loop of `nx_xstr_from_readable`, `src/nx_string.c:156-180`.
`size` is the loop counter, `inp` the bytes readable at the pointer, `cap` the
size of the allocation and `out` what has been written to it. Returns the
written bytes without the terminator. -/
def fromReadableLoop (cap : Nat) : (size : Nat) → (inp : Bytes) → (out : Bytes) → Res Bytes
  | 0, _, out => do
      let _ ← push cap out 0
      pure out
  | _ + 1, [], _ => .ub
  | size + 1, c :: inp, out =>
      if c = 92 then
        match size, inp with
        | 0, _ => .fatal
        | _ + 1, [] => .ub
        | size' + 1, d :: inp' =>
          match unescapeChar d with
          | none => .fatal
          | some e => do
              let out ← push cap out e
              fromReadableLoop cap size' inp' out
      else do
        let out ← push cap out c
        fromReadableLoop cap size inp out
termination_by size => size

/-- `nx_xstr_from_readable(size, readable)`, `src/nx_string.c:149-181`, for a
non-NULL pointer to the bytes `inp`. -/
def xstrFromReadable (size : Nat) (inp : Bytes) : Res Bytes :=
  fromReadableLoop (size + 1) size inp []

/-- One character of `nx_fputs_double_quoted`, `src/nx_io.c:146-154`. -/
def dquotedChar (c : Byte) : Bytes := if c = 34 then [34, 34] else [c]

/-- The loop of `nx_fputs_double_quoted`, `src/nx_io.c:145-156`. -/
def dquotedBody : Bytes → Bytes
  | [] => []
  | c :: s => dquotedChar c ++ dquotedBody s

/-- `nx_fputs_double_quoted`, `src/nx_io.c:137-162`: bytes sent to the stream
(`none` is the NULL string: nothing is written). -/
def fputsDoubleQuoted : Option Bytes → Bytes
  | none => []
  | some s => [34] ++ dquotedBody s ++ [34]

/-- The loop of `nx_xstr_from_double_quoted`, `src/nx_string.c:190-207`. -/
def fromDoubleQuotedLoop (cap : Nat) : (size : Nat) → (inp : Bytes) → (out : Bytes) → Res Bytes
  | 0, _, out => do
      let _ ← push cap out 0
      pure out
  | _ + 1, [], _ => .ub
  | size + 1, c :: inp, out =>
      if c = 34 then
        match size, inp with
        | 0, _ => .fatal
        | _ + 1, [] => .ub
        | size' + 1, d :: inp' =>
          if d = 34 then do
            let out ← push cap out 34
            fromDoubleQuotedLoop cap size' inp' out
          else .fatal
      else do
        let out ← push cap out c
        fromDoubleQuotedLoop cap size inp out
termination_by size => size

/-- `nx_xstr_from_double_quoted(size, dquoted)`, `src/nx_string.c:183-208`, for
a non-NULL pointer to the bytes `inp`. -/
def xstrFromDoubleQuoted (size : Nat) (inp : Bytes) : Res Bytes :=
  fromDoubleQuotedLoop (size + 1) size inp []

/-- The two characters produced by `sprintf("%02x", b)` in `nx_hash_to_str`,
`src/nx_string.c:257`. -/
def hexDigit (n : Nat) : Byte := if n < 10 then UInt8.ofNat (48 + n) else UInt8.ofNat (87 + n)

/-- `nx_hash_to_str(n, hash)`, `src/nx_string.c:249-261`, as the loop over `i`
writing two digits (and a terminator that the next iteration overwrites) at
`2*i`. `n` is the caller's count, `hash` the bytes at the pointer. -/
def hashToStr : (n : Nat) → (hash : Bytes) → Res Bytes
  | 0, _ => .ok []
  | _ + 1, [] => .ub
  | n + 1, b :: hash => do
      let rest ← hashToStr n hash
      pure (hexDigit (b.toNat / 16) :: hexDigit (b.toNat % 16) :: rest)

end Nx
