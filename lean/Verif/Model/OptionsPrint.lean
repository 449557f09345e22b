import Verif.Model.Options
import Verif.Model.Sample

/-!
# Model of printing the options

`src/nx_options.c`. The output is the sequence of bytes sent to the stream. Lengths are natural numbers (`int` and `size_t` in the code, for texts
shorter than 2 GiB). Texts of the options are values without zero bytes. Freeing of the temporary texts is left out. `fmtD` is the conversion `%f`.
-/

namespace Nx

/-- `strlen`; a null pointer is undefined. -/
def cLen : Option Bytes → Res Nat
  | none => .ub
  | some s => .ok s.length

/-- A string as argument of `%s`; a null pointer is undefined. -/
def cArg : Option Bytes → Res Bytes
  | none => .ub
  | some s => .ok s

/-- The C string at the start of an array. -/
def cStrOf (mem : Bytes) : Res Bytes := if (0 : Byte) ∈ mem then .ok (mem.takeWhile (· != 0)) else .ub

/-- `%*s`: at least `w` characters, filled with spaces on the left. -/
def padLeft (w : Nat) (s : Bytes) : Bytes := List.replicate (w - s.length) 32 ++ s

/-- An option with its help text, `src/nx_options.c:58-69`. -/
structure HOpt where
  data : OptData
  help : Option Bytes

/-- The rest record with its name, which is stored as help text, `src/nx_options.c:639-648`. -/
structure HRest where
  data : OptRest
  help : Option Bytes

/-- The length of the names of an option, `src/nx_options.c:521-528`. -/
def nameLen (o : OptData) : Res Nat :=
  match o.name with
  | some n =>
    match o.shortName with
    | some s => .ok (n.length + (s.length + 2))
    | none => .ok n.length
  | none => cLen o.shortName

/-- The loop of `compute_name_column_size`, `src/nx_options.c:519-533`. -/
def columnLoop (w : Nat) : List HOpt → Res Nat
  | [] => .ok w
  | o :: rest => do
    let l ← nameLen o.data
    columnLoop (if l > w then l else w) rest

/-- `compute_name_column_size`, `src/nx_options.c:515-542`; `rest` is empty unless the rest is processed. -/
def columnSize (opts : List HOpt) (rest : Option HRest) : Res Nat := do
  let w ← columnLoop 0 opts
  match rest with
  | none => pure w
  | some r => do
    let l ← cLen r.help
    pure (if l > w then l else w)

/-- `name_short_name_join`, `src/nx_options.c:544-565`: memory of exactly the joined names and a zero byte. -/
def nameJoin (junk : Nat → Byte) (name short : Option Bytes) : Res (Option Bytes) :=
  match name with
  | some n =>
    match short with
    | some s => do
      let colsz := n.length + s.length + 3
      let mem := (List.range colsz).map junk
      let mem ← writeBlock mem 0 (n ++ [0])
      let mem ← writeBlock mem n.length (bytesOf ", " ++ [0])
      let mem ← writeBlock mem (n.length + 2) (s ++ [0])
      let mem ← writeAt mem (colsz - 1) 0
      let t ← cStrOf mem
      pure (some t)
    | none => .ok (some n)
  | none => .ok short

/-- `snprintf(val_str, 1024, …)` of a text. -/
def snprintf1024 (mem text : Bytes) : Res Bytes := writeBlock mem 0 (text.take 1023 ++ [0])

/-- The switch of `nx_option_data_to_string`, `src/nx_options.c:844-859`. -/
def optWrite (fmtD : UInt64 → Bytes) (mem : Bytes) (type : OType) (value : OVal) : Res Bytes :=
  match type, value with
  | .bool, .b v => snprintf1024 mem (if v ≠ 0 then bytesOf "true" else bytesOf "false")
  | .int, .i v => snprintf1024 mem (intText v)
  | .double, .d v => snprintf1024 mem (fmtD v)
  | .string, .s v => do
    let v ← cArg v
    snprintf1024 mem (bytesOf "'" ++ v ++ bytesOf "'")
  | .help, _ => .ok mem
  | _, _ => .ub

/-- `nx_option_data_to_string`, `src/nx_options.c:838-862`; a value that does not belong to the type is undefined. -/
def optString (fmtD : UInt64 → Bytes) (junk : Nat → Byte) (type : OType) (value : OVal) : Res Bytes := do
  let mem ← writeAt ((List.range 1024).map junk) 0 0
  let mem ← optWrite fmtD mem type value
  cStrOf mem

variable (fmtD : UInt64 → Bytes) (junk : Nat → Byte)

/-- One option of `nx_options_print_values`, `src/nx_options.c:455-463`. -/
def valueLine (w : Nat) (o : HOpt) : Res Bytes :=
  if o.data.type ≠ .help then do
    let v ← optString fmtD junk o.data.type o.data.value
    let n ← nameJoin junk o.data.name o.data.shortName
    let n ← cArg n
    pure (padLeft w n ++ bytesOf ": " ++ v ++ [10])
  else pure []

/-- The options of `nx_options_print_values`, `src/nx_options.c:453-465`. -/
def valueLines (w : Nat) : List HOpt → Res Bytes
  | [] => .ok []
  | o :: rest => do
    let a ← valueLine fmtD junk w o
    let b ← valueLines w rest
    pure (a ++ b)

/-- One of the rest, `src/nx_options.c:470-473`. -/
def restItem (vals : List (Option Bytes)) (n : Nat) (i : Nat) (out : Bytes) : Res Bytes := do
  let v ← readAt vals i
  let v ← cArg v
  let out := out ++ (bytesOf "'" ++ v ++ bytesOf "'")
  if i ≠ n - 1 then pure (out ++ bytesOf ", ") else pure out

/-- The rest of `nx_options_print_values`, `src/nx_options.c:467-476`. -/
def restLine (w : Nat) (r : HRest) : Res Bytes := do
  let h ← cArg r.help
  let out := padLeft w h ++ bytesOf ": ["
  let out ← forLoop r.data.n.toNat (restItem (r.data.vals.getD []) r.data.n.toNat) 0 out
  pure (out ++ bytesOf "]\n")

/-- `nx_options_print_values`, `src/nx_options.c:448-477`. -/
def printValues (opts : List HOpt) (rest : Option HRest) : Res Bytes := do
  let w ← columnSize opts rest
  let a ← valueLines fmtD junk w opts
  match rest with
  | none => pure a
  | some r => do
    let b ← restLine w r
    pure (a ++ b)

/-- One option of `nx_options_print`, `src/nx_options.c:572-580`. -/
def usageLine (w : Nat) (o : HOpt) : Res Bytes := do
  let n ← nameJoin junk o.data.name o.data.shortName
  let v ← optString fmtD junk o.data.type o.data.dflt
  let n ← cArg n
  let h ← cArg o.help
  let op := if o.data.isRequired then bytesOf "(" else if o.data.type ≠ .help then bytesOf "[" else []
  let cl := if o.data.isRequired then bytesOf ")" else if o.data.type ≠ .help then bytesOf "]" else []
  pure (bytesOf "  " ++ padLeft w n ++ bytesOf " : " ++ h ++ bytesOf " " ++ op ++ (if o.data.isRequired then bytesOf "REQUIRED" else v) ++ cl ++ [10])

/-- The loop of `nx_options_print`, `src/nx_options.c:571-583`. -/
def usageLines (w : Nat) : List HOpt → Res Bytes
  | [] => .ok []
  | o :: rest => do
    let a ← usageLine fmtD junk w o
    let b ← usageLines w rest
    pure (a ++ b)

/-- The name of the rest in the first line, `src/nx_options.c:487-493`. -/
def usageRest : Option HRest → Res Bytes
  | none => .ok []
  | some r => do
    let h ← cArg r.help
    pure (if r.data.isRequired then bytesOf " <" ++ h ++ bytesOf ">" else bytesOf " [<" ++ h ++ bytesOf ">]")

/-- `nx_options_print`, `src/nx_options.c:567-584`, unless there are no options, `:495-497`. -/
def usageBody (opts : List HOpt) : Res Bytes :=
  if opts.isEmpty then .ok []
  else do
    let w ← columnSize opts none
    usageLines fmtD junk w opts

/-- `nx_options_print_usage`, `src/nx_options.c:479-502`. -/
def printUsage (header footer prog : Option Bytes) (opts : List HOpt) (rest : Option HRest) : Res Bytes := do
  let r ← usageRest rest
  let l ← usageBody fmtD junk opts
  pure (header.getD [] ++ bytesOf "USAGE: " ++ prog.getD (bytesOf "prog") ++ bytesOf " [options]" ++ r ++ [10] ++ l ++ footer.getD [])

end Nx
