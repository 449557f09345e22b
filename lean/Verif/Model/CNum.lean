import Verif.Model.FastThreshold

/-!
# Numbers in text: the parts of the C library the repository relies on

`strtol`, `atoi` and the `%d` conversion, as specified in ISO C11 7.22.1 and 7.21.6.1
(64-bit `long`, 32-bit `int`, "C" locale). They are called at
`src/nx_csv_parser.c:44` and `:97`, `src/nx_data_frame.c:230` and `:563`,
`src/nx_options.c`, `src/nx_json_bundle.c`, and the image readers. A text is given
without its terminating zero.
-/

namespace Nx

/-- `isspace` in the "C" locale. -/
def isSpaceB (b : Byte) : Bool := (9 ≤ b.toNat && b.toNat ≤ 13) || b.toNat == 32

/-- The value of a digit or letter in bases up to 36. -/
def digitVal (b : Byte) : Option Nat :=
  if 48 ≤ b.toNat ∧ b.toNat ≤ 57 then some (b.toNat - 48)
  else if 97 ≤ b.toNat ∧ b.toNat ≤ 122 then some (b.toNat - 87)
  else if 65 ≤ b.toNat ∧ b.toNat ≤ 90 then some (b.toNat - 55)
  else none

/-- Is `b` a digit of this base? -/
def isDigitB (base : Nat) (b : Byte) : Bool :=
  match digitVal b with
  | some d => d < base
  | none => false

/-- Value of a digit sequence, most significant first. -/
def digitsVal (base acc : Nat) : Bytes → Nat
  | [] => acc
  | b :: r => digitsVal base (acc * base + (match digitVal b with | some d => d | none => 0)) r

/-- Optional sign: is the number negative, and what follows. -/
def takeSign : Bytes → Bool × Bytes
  | 45 :: r => (true, r)
  | 43 :: r => (false, r)
  | r => (false, r)

/-- Does a text start with `0x` and a hexadecimal digit? -/
def hexPrefix : Bytes → Bool
  | 48 :: x :: h :: _ => (x == 120 || x == 88) && isDigitB 16 h
  | _ => false

/-- The base and the digits part chosen by `strtol` for the text behind the sign. -/
def strtolBase (base : Nat) (s : Bytes) : Nat × Bytes :=
  if (base = 0 ∨ base = 16) ∧ hexPrefix s = true then (16, s.drop 2)
  else if base = 0 then (if s.head? = some 48 then (8, s) else (10, s))
  else (base, s)

/-- A `long` result: clamped to `LONG_MIN … LONG_MAX`. -/
def clampLong (v : Int) : Int :=
  if v < -9223372036854775808 then -9223372036854775808
  else if 9223372036854775807 < v then 9223372036854775807 else v

/-- `strtol(s, &end, base)`, ISO C11 7.22.1.4: value and the text at `end`. -/
def strtol (base : Nat) (s : Bytes) : Int × Bytes :=
  let sg := takeSign (s.dropWhile isSpaceB)
  let bd := strtolBase base sg.2
  let ds := bd.2.takeWhile (isDigitB bd.1)
  if ds = [] then (0, s)
  else
    let v : Int := digitsVal bd.1 0 ds
    (clampLong (if sg.1 then -v else v), bd.2.dropWhile (isDigitB bd.1))

/-- `atoi`, ISO C11 7.22.1.2: undefined when the value is no `int`. -/
def atoi (s : Bytes) : Res Int :=
  let v := (strtol 10 s).1
  if InI32 v then .ok v else .ub

/-- Decimal digits of a number, most significant first. -/
def natText (n : Nat) : Bytes :=
  if n < 10 then [UInt8.ofNat (48 + n)] else natText (n / 10) ++ [UInt8.ofNat (48 + n % 10)]
termination_by n

/-- The `%d` conversion. -/
def intText (v : Int) : Bytes :=
  if v < 0 then 45 :: natText v.natAbs else natText v.natAbs

end Nx
