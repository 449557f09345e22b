import Verif.Model.Options

/-!
# Users of the command line options

The parameters of the SIFT detector, `src/nx_sift_detector.c`, and the C++ class `VGOptions`, `src/vg_options.cc`.
-/

namespace Nx

/-- `struct NXSIFTDetectorParams`, `include/virg/nexus/nx_sift_detector.h:50-59`; `float` as bits. -/
structure SiftParams where
  doubleImage : Int
  nScales : Int
  sigma0 : UInt32
  truncation : UInt32
  border : Int
  peak : UInt32
  edge : UInt32
  magnification : Int
deriving DecidableEq, Repr

/-- `nx_sift_default_parameters`, `include/virg/nexus/nx_sift_detector.h:61-74`. -/
def siftDefaults : SiftParams :=
  { doubleImage := 1, nScales := 3, sigma0 := 0x3fcccccd, truncation := 0x40800000, border := 5, peak := 0x3d23d70a,
    edge := 0x41200000, magnification := 3 }

/-- `nx_sift_parameters_add_to_options`, `src/nx_sift_detector.c:55-67`; `toD` converts `float` to `double`. -/
def siftAddOptions (wrap : Bool) (toD : UInt32 → UInt64) (o : Options) : Res Options :=
  let p := siftDefaults
  optVadd wrap o (bytesOf "biddiddi")
    [.str (some (bytesOf "--sift-double-image")), .str (some (bytesOf "double input image size before computation")), .int 0,
     .str (some (bytesOf "--sift-n-scales-per-octave")), .str (some (bytesOf "number of intermediate scales within each octave")),
     .int p.nScales,
     .str (some (bytesOf "--sift-sigma0")), .str (some (bytesOf "initial sigma for the input image")), .dbl (toD p.sigma0),
     .str (some (bytesOf "--sift-kernel-truncation-factor")), .str (some (bytesOf "multipler for filter size computation")),
     .dbl (toD p.truncation),
     .str (some (bytesOf "--sift-border-distance")), .str (some (bytesOf "distance to border within which to skip extraction")),
     .int p.border,
     .str (some (bytesOf "--sift-peak-threshold")), .str (some (bytesOf "DoG score threshold, decrease to get more keypoints")),
     .dbl (toD p.peak),
     .str (some (bytesOf "--sift-edge-threshold")), .str (some (bytesOf "threshold for filtering edge like regions")),
     .dbl (toD p.edge),
     .str (some (bytesOf "--sift-magnification-factor")), .str (some (bytesOf "multipler to determine descriptor radius")),
     .int p.magnification]

/-- `nx_options_get_bool`, `src/nx_options.c:380-393`. -/
def optGetBool (wrap : Bool) (o : Options) (name : Bytes) : Res Int := do
  let v ← optGet wrap o name .bool
  match v with
  | .b x => pure x
  | _ => .ub

/-- `nx_options_get_int`, `src/nx_options.c:395-407`. -/
def optGetInt (wrap : Bool) (o : Options) (name : Bytes) : Res Int := do
  let v ← optGet wrap o name .int
  match v with
  | .i x => pure x
  | _ => .ub

/-- `nx_options_get_double`, `src/nx_options.c:409-421`. -/
def optGetDouble (wrap : Bool) (o : Options) (name : Bytes) : Res UInt64 := do
  let v ← optGet wrap o name .double
  match v with
  | .d x => pure x
  | _ => .ub

/-- `nx_options_get_string`, `src/nx_options.c:423-435`. -/
def optGetString (wrap : Bool) (o : Options) (name : Bytes) : Res (Option Bytes) := do
  let v ← optGet wrap o name .string
  match v with
  | .s x => pure x
  | _ => .ub

/-- `nx_sift_parameters_from_options`, `src/nx_sift_detector.c:69-83`; `toS` converts `double` to `float`. -/
def siftFromOptions (wrap : Bool) (toS : UInt64 → UInt32) (o : Options) : Res SiftParams := do
  let a ← optGetBool wrap o (bytesOf "--sift-double-image")
  let b ← optGetInt wrap o (bytesOf "--sift-n-scales-per-octave")
  let c ← optGetDouble wrap o (bytesOf "--sift-sigma0")
  let d ← optGetDouble wrap o (bytesOf "--sift-kernel-truncation-factor")
  let e ← optGetInt wrap o (bytesOf "--sift-border-distance")
  let f ← optGetDouble wrap o (bytesOf "--sift-peak-threshold")
  let g ← optGetDouble wrap o (bytesOf "--sift-edge-threshold")
  let h ← optGetInt wrap o (bytesOf "--sift-magnification-factor")
  pure ⟨a, b, toS c, toS d, e, toS f, toS g, h⟩

/-- The declaring functions of `VGOptions`; the texts have no zero byte. -/
inductive VgDecl where
  | bool (switches help : Bytes) (required value : Bool)
  | int (switches help : Bytes) (required : Bool) (value : Int)
  | double (switches help : Bytes) (required : Bool) (value : UInt64)
  | string (switches help : Bytes) (required : Bool) (value : Bytes)
  | rest (help : Bytes) (required : Bool)
  | help

/-- `VGOptions::add_bool` to `VGOptions::add_help`, `src/vg_options.cc:42-76`. -/
def vgDeclare (wrap : Bool) (o : Options) : VgDecl → Res Options
  | .bool s h q v => optVadd wrap o (if q then bytesOf "B" else bytesOf "b") [.str (some s), .str (some h), .int (if v then 1 else 0)]
  | .int s h q v => optVadd wrap o (if q then bytesOf "I" else bytesOf "i") [.str (some s), .str (some h), .int v]
  | .double s h q v => optVadd wrap o (if q then bytesOf "D" else bytesOf "d") [.str (some s), .str (some h), .dbl v]
  | .string s h q v => optVadd wrap o (if q then bytesOf "S" else bytesOf "s") [.str (some s), .str (some h), .str (some v)]
  | .rest h q => optVadd wrap o (if q then bytesOf "R" else bytesOf "r") [.str (some h)]
  | .help => optAddHelp wrap o

/-- A sequence of them. -/
def vgDeclareAll (wrap : Bool) (o : Options) : List VgDecl → Res Options
  | [] => .ok o
  | d :: ds => do
    let o ← vgDeclare wrap o d
    vgDeclareAll wrap o ds

/-- The loop of `VGOptions::get_rest`, `src/vg_options.cc:110-114`. -/
def vgRestLoop (rest : List (Option Bytes)) (i : Nat) (r : List Bytes) : Res (List Bytes) :=
  if h : i < rest.length then
    match rest[i] with
    | none => .ok r
    | some s => vgRestLoop rest (i + 1) (r ++ [s])
  else .ub
termination_by rest.length - i

/-- `VGOptions::get_rest`, `src/vg_options.cc:104-118`. -/
def vgGetRest (o : Options) : Res (List Bytes) :=
  match optGetRest o with
  | none => .ok []
  | some rest => vgRestLoop rest 0 []

/-- `VGOptions::get_string`, `src/vg_options.cc:99-102`; a `std::string` must not be made from a null pointer. -/
def vgGetString (wrap : Bool) (o : Options) (name : Bytes) : Res Bytes := do
  let v ← optGetString wrap o name
  match v with
  | some s => pure s
  | none => .ub

end Nx
