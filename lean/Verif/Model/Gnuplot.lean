import Verif.Model.CNum
import Verif.Model.DataFrameIO
import Verif.Model.Warp
import Verif.Model.Ledger

/-!
# Model of the commands sent to gnuplot: `src/nx_gnuplot.c`

A call gives the bytes that it writes to the stream; writing does not fail. `fmtF` is the conversion `%lf`, `fmtD` that of
`nx_data_frame_fprintf`. A stream is a handle in the ledger of `Model/Ledger.lean`; `popen` gives a new one, `pclose` closes it.
-/

namespace Nx

/-- The bytes of a literal. -/
def asc (s : String) : Bytes := s.toList.map (fun c => c.toNat.toUInt8)

/-- An argument of `printf`; numbers of type `double` are rational. -/
inductive PArg
  | str (s : Bytes)
  | int (i : Int)
  | dbl (q : Rat)

/-- `vfprintf` for `%s`, `%d`, `%lf` and `%%`; an argument of another type and a missing argument are undefined, any other conversion
is not modelled and counts as undefined. -/
def cFormat (fmtF : Rat → Bytes) : Bytes → List PArg → Res Bytes
  | [], _ => .ok []
  | 37 :: 115 :: f, .str s :: as => do
    let r ← cFormat fmtF f as
    pure (s ++ r)
  | 37 :: 100 :: f, .int i :: as => do
    let r ← cFormat fmtF f as
    pure (intText i ++ r)
  | 37 :: 108 :: 102 :: f, .dbl q :: as => do
    let r ← cFormat fmtF f as
    pure (fmtF q ++ r)
  | 37 :: 37 :: f, as => do
    let r ← cFormat fmtF f as
    pure (37 :: r)
  | 37 :: _, _ => .ub
  | c :: f, as => do
    let r ← cFormat fmtF f as
    pure (c :: r)

/-- `nx_gnuplot_send_command`, `src/nx_gnuplot.c:84-93`. -/
def gpSend (fmtF : Rat → Bytes) (cmd : Bytes) (args : List PArg) : Res Bytes := cFormat fmtF cmd args

/-- `nx_gnuplot_init`, `src/nx_gnuplot.c:44-50`. -/
def gpInit (fmtF : Rat → Bytes) : Res Bytes :=
  gpSend fmtF (asc "set border 3 lw 3;\nset xtics out nomirror;\nset ytics out nomirror;\n") []

/-- `nx_gnuplot_send_data_frame`, `src/nx_gnuplot.c:95-114`. -/
def gpSendFrame (fmtF : Rat → Bytes) (fmtD : UInt64 → Bytes) (df : DFrame) : Option Bytes → Res Bytes
  | some label => do
    let h ← cFormat fmtF (asc "$%s << EOD\n") [.str label]
    let t ← dfFprintf fmtD df [32]
    pure (h ++ t ++ asc "EOD\n")
  | none => do
    let t ← dfFprintf fmtD df [32]
    pure (t ++ asc "e\n")

/-- `nx_gnuplot_set_terminal_window`, `src/nx_gnuplot.c:122-132`. -/
def gpTermWindow (fmtF : Rat → Bytes) (width height : Int) (title : Bytes) (id : Int) : Res Bytes :=
  gpSend fmtF (asc "set terminal qt %d size %d,%d enhanced title \"%s\";\nunset output;\n")
    [.int id, .int width, .int height, .str title]

/-- `nx_gnuplot_set_terminal_svg`, `src/nx_gnuplot.c:134-144`. -/
def gpTermSvg (fmtF : Rat → Bytes) (width height : Int) (title filename : Bytes) : Res Bytes :=
  gpSend fmtF (asc "set terminal svg size %d,%d enhanced name \"%s\";\nset output \"%s\";\n")
    [.int width, .int height, .str title, .str filename]

/-- `nx_gnuplot_set_terminal_pdf`, `src/nx_gnuplot.c:146-155`. -/
def gpTermPdf (fmtF : Rat → Bytes) (width height : Rat) (filename : Bytes) : Res Bytes :=
  gpSend fmtF (asc "set terminal pdfcairo enhanced color size %lfcm,%lfcm\nset output \"%s\"\n") [.dbl width, .dbl height, .str filename]

/-- `nx_gnuplot_set_terminal_eps`, `src/nx_gnuplot.c:157-166`. -/
def gpTermEps (fmtF : Rat → Bytes) (width height : Rat) (filename : Bytes) : Res Bytes :=
  gpSend fmtF (asc "set terminal epscairo enhanced color size %lfcm,%lfcm;\nset output \"%s\"\n") [.dbl width, .dbl height, .str filename]

/-- `nx_gnuplot_set_terminal_ascii`, `src/nx_gnuplot.c:168-173`. -/
def gpTermAscii (fmtF : Rat → Bytes) (width height : Int) (linefeed : Bool) : Res Bytes :=
  gpSend fmtF (asc "set terminal dumb size %d,%d enhanced %sfeed;\n")
    [.int width, .int height, .str (if linefeed then [] else asc "no")]

/-- `enum NXTerminalType`, `include/virg/nexus/nx_gnuplot.h`. -/
inductive TermType
  | window
  | svg
  | pdf
  | eps
  | ascii
deriving DecidableEq, Repr

/-- `nx_gnuplot_set_terminal`, `src/nx_gnuplot.c:175-189`; sizes are converted to `int` for three of the types. -/
def gpTerm (fmtF : Rat → Bytes) (ty : TermType) (width height : Rat) (name : Bytes) (id : Int) : Res Bytes :=
  match ty with
  | .window => do
    let w ← truncInt width
    let h ← truncInt height
    gpTermWindow fmtF w h name id
  | .svg => do
    let w ← truncInt width
    let h ← truncInt height
    gpTermSvg fmtF w h (asc "VIRG") name
  | .pdf => gpTermPdf fmtF width height name
  | .eps => gpTermEps fmtF width height name
  | .ascii => do
    let w ← truncInt width
    let h ← truncInt height
    gpTermAscii fmtF w h true

/-- `nx_gnuplot_set_title`, `src/nx_gnuplot.c:191-197`. -/
def gpTitle (fmtF : Rat → Bytes) (title : Bytes) : Res Bytes := gpSend fmtF (asc "set title \"%s\";\n") [.str title]

/-- `nx_gnuplot_set_xlabel`, `src/nx_gnuplot.c:199-206`. -/
def gpXlabel (fmtF : Rat → Bytes) (label : Bytes) : Res Bytes := gpSend fmtF (asc "set title xlabel \"%s\";\n") [.str label]

/-- `nx_gnuplot_set_ylabel`, `src/nx_gnuplot.c:208-215`. -/
def gpYlabel (fmtF : Rat → Bytes) (label : Bytes) : Res Bytes := gpSend fmtF (asc "set title ylabel \"%s\";\n") [.str label]

/-- `nx_gnuplot_set_title_and_labels`, `src/nx_gnuplot.c:217-229`. -/
def gpTitleLabels (fmtF : Rat → Bytes) (title xlabel ylabel : Bytes) : Res Bytes :=
  gpSend fmtF (asc "set title \"%s\";\nset xlabel \"%s\";\nset ylabel \"%s\";\n") [.str title, .str xlabel, .str ylabel]

/-- `struct NXGNUPlot`, `src/nx_gnuplot.c:38-42`, with its own block. -/
structure GpObj where
  self : Nat
  stream : Nat
  isPipe : Bool
deriving DecidableEq, Repr

/-- `nx_gnuplot_new`, `src/nx_gnuplot.c:52-73`; `popens` says whether the pipe can be opened. -/
def gpNew (σ : Mem) (stream : Option Nat) (popens : Bool) : Res (Mem × GpObj) :=
  match stream with
  | some s => .ok ((memAlloc σ).1, ⟨(memAlloc σ).2, s, false⟩)
  | none =>
    if popens then .ok ((memAlloc (memAlloc σ).1).1, ⟨(memAlloc σ).2, (memAlloc (memAlloc σ).1).2, true⟩)
    else .fatal

/-- `nx_gnuplot_free`, `src/nx_gnuplot.c:75-82`. -/
def gpFree (σ : Mem) (g : Option GpObj) : Res Mem :=
  match g with
  | none => .ok σ
  | some g => do
    let σ ← memFree σ (if g.isPipe then some g.stream else none)
    memFree σ (some g.self)

end Nx
