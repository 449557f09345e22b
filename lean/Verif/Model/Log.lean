import Verif.Model.Gnuplot

/-!
# Model of the messages of the library: `src/nx_log_c_impl.c`

A call gives the bytes that it writes to `stderr`; writing does not fail. `fmtF` is the conversion `%lf`, `tty` says whether `stderr` is
a terminal. The functions that a program can set for fatal errors are numbers; `leaves i` says whether function `i` leaves the program
or jumps out of the call, as its type demands, instead of returning.
-/

namespace Nx

/-- `g_log_verbosity` and `g_fatal_func`, `src/nx_log_c_impl.c:49-50`; `none` is `default_fatal_func`. -/
structure LogState where
  verb : Int
  fatal : Option Nat
deriving DecidableEq, Repr

/-- The initial values, `src/nx_log_c_impl.c:49-50`; `NX_LOG_DEFAULT` is 1, `include/virg/nexus/nx_log.h:39`. -/
def logInit : LogState := ⟨1, none⟩

/-- `LOG_HEADER_FORMAT`, `src/nx_log_c_impl.c:47`. -/
def logHeaderFormat : Bytes := asc "[%s][%s][%s:%d] "

/-- `NX_RESET_COLOR_CODE`, `src/nx_log_c_impl.c:43`. -/
def logReset : Bytes := 27 :: asc "[0m"

/-- The first `switch` of `nx_log_formatted`, `src/nx_log_c_impl.c:108-113`; nothing for other levels. -/
def logColour (level : Int) : Bytes :=
  if level = 0 then 27 :: asc "[34;1m"
  else if level = 1 then 27 :: asc "[36m"
  else if level = 2 then 27 :: asc "[33m"
  else if level = 3 then 27 :: asc "[31;1m"
  else []

/-- The second `switch`, `src/nx_log_c_impl.c:116-123`. -/
def logLetter (level : Int) : Bytes :=
  if level = 0 then asc "I"
  else if level = 1 then asc "L"
  else if level = 2 then asc "W"
  else if level = 3 then asc "E"
  else asc "?"

/-- `nx_log_formatted`, `src/nx_log_c_impl.c:101-131`. -/
def logFormatted (fmtF : Rat → Bytes) (tty : Bool) (st : LogState) (level : Int) (fn : Bytes) (line : Int) (tag msg : Bytes)
    (args : List PArg) : Res Bytes :=
  if st.verb ≤ level then do
    let h ← cFormat fmtF logHeaderFormat [.str (logLetter level), .str tag, .str fn, .int line]
    let m ← cFormat fmtF msg args
    pure ((if tty then logColour level else []) ++ h ++ m ++ (if tty then logReset else []) ++ [10])
  else .ok []

/-- The conversion `%2d` of a number that is not negative. -/
def fmt2d (i : Nat) : Bytes := if i < 10 then 32 :: natText i else natText i

/-- The loop of `print_call_stack`, `src/nx_log_c_impl.c:62-64`. -/
def logFrames : Nat → List Bytes → Bytes
  | _, [] => []
  | i, s :: ss => asc "   (" ++ fmt2d i ++ asc ") " ++ s ++ [10] ++ logFrames (i + 1) ss

/-- `print_call_stack`, `src/nx_log_c_impl.c:52-67`, for a stack of `size` frames; `symbols` is the result of `backtrace_symbols`, `none`
if there is no memory. -/
def logCallStack (size : Nat) (symbols : Option (List Bytes)) : Res Bytes :=
  match symbols with
  | some l => if l.length = size then .ok (asc "Call stack:\n" ++ logFrames 0 l) else .ub
  | none => if size = 0 then .ok (asc "Call stack:\n") else .ub

/-- How a sequence of calls ends: it goes on, the program has exited with a status, or a function of the program has left. -/
inductive LogEnd
  | more (st : LogState)
  | exited (status : Int)
  | left (i : Nat)
deriving DecidableEq, Repr

/-- `default_fatal_func`, `src/nx_log_c_impl.c:84-99`; `NX_EXIT_FATAL` is -99, `include/virg/nexus/nx_config.h.in:57`. -/
def logDefaultFatal (fmtF : Rat → Bytes) (tty : Bool) (stack : Res Bytes) (fn : Bytes) (line : Int) (tag msg : Bytes)
    (args : List PArg) : Res (Bytes × LogEnd) := do
  let h ← cFormat fmtF logHeaderFormat [.str (asc "F"), .str tag, .str fn, .int line]
  let m ← cFormat fmtF msg args
  let s ← stack
  pure ((if tty then 27 :: asc "[35;1m" else []) ++ h ++ m ++ (if tty then logReset else []) ++ [10] ++ s, .exited (-99))

/-- `nx_log_fatal`, `src/nx_log_c_impl.c:133-139`: behind a function that returns, a function that must not return does. -/
def logFatal (fmtF : Rat → Bytes) (tty : Bool) (stack : Res Bytes) (leaves : Nat → Bool) (st : LogState) (fn : Bytes) (line : Int)
    (tag msg : Bytes) (args : List PArg) : Res (Bytes × LogEnd) :=
  match st.fatal with
  | none => logDefaultFatal fmtF tty stack fn line tag msg args
  | some i => if leaves i then .ok ([], .left i) else .ub

/-- A call. -/
inductive LogCall
  | print (level : Int) (fn : Bytes) (line : Int) (tag msg : Bytes) (args : List PArg)
  | verbosity (v : Int)
  | fatalFunc (f : Option Nat)
  | fatal (fn : Bytes) (line : Int) (tag msg : Bytes) (args : List PArg)

/-- One call: `nx_log_verbosity` and `nx_log_fatal_func` are `src/nx_log_c_impl.c:141-144` and `:146-153`. -/
def logCall (fmtF : Rat → Bytes) (tty : Bool) (stack : Res Bytes) (leaves : Nat → Bool) (st : LogState) : LogCall → Res (Bytes × LogEnd)
  | .print level fn line tag msg args => do
    let o ← logFormatted fmtF tty st level fn line tag msg args
    pure (o, .more st)
  | .verbosity v => .ok ([], .more { st with verb := v })
  | .fatalFunc f => .ok ([], .more { st with fatal := f })
  | .fatal fn line tag msg args => logFatal fmtF tty stack leaves st fn line tag msg args

/-- A sequence of calls: everything written and the end. -/
def logRun (fmtF : Rat → Bytes) (tty : Bool) (stack : Res Bytes) (leaves : Nat → Bool) : LogState → List LogCall → Res (Bytes × LogEnd)
  | st, [] => .ok ([], .more st)
  | st, c :: cs => do
    let r ← logCall fmtF tty stack leaves st c
    match r.2 with
    | .more st' => do
      let r' ← logRun fmtF tty stack leaves st' cs
      pure (r.1 ++ r'.1, r'.2)
    | e => pure (r.1, e)

end Nx
