import Verif.Model.SiftOptions
import Verif.Spec.Options

/-!
# Specification of the users of the command line options
-/

namespace Nx

/-- The options of the SIFT detector with the defaults that the usage promises; the image is not doubled. -/
def siftDecls (toD : UInt32 → UInt64) : List ODecl :=
  [.opt .bool (bytesOf "--sift-double-image") (.b 0) false, .opt .int (bytesOf "--sift-n-scales-per-octave") (.i 3) false,
   .opt .double (bytesOf "--sift-sigma0") (.d (toD 0x3fcccccd)) false,
   .opt .double (bytesOf "--sift-kernel-truncation-factor") (.d (toD 0x40800000)) false,
   .opt .int (bytesOf "--sift-border-distance") (.i 5) false,
   .opt .double (bytesOf "--sift-peak-threshold") (.d (toD 0x3d23d70a)) false,
   .opt .double (bytesOf "--sift-edge-threshold") (.d (toD 0x41200000)) false,
   .opt .int (bytesOf "--sift-magnification-factor") (.i 3) false]

/-- The value of option `k`: that of its last occurrence, or else the default. -/
def ValueIs (atof : Bytes → UInt64) (occ : List (Nat × Option Bytes)) (k : Nat) (t : OType) (dflt val : OVal) : Prop :=
  (NeverOcc occ k ∧ val = dflt) ∨ ∃ a, LastOcc occ k a ∧ Gives atof t a val

/-- The parameters for the options met, of which those of the detector start at number `m`. -/
def ParamsAre (atof : Bytes → UInt64) (toD : UInt32 → UInt64) (toS : UInt64 → UInt32) (occ : List (Nat × Option Bytes)) (m : Nat)
    (p : SiftParams) : Prop :=
  ValueIs atof occ m .bool (.b 0) (.b p.doubleImage) ∧
  ValueIs atof occ (m + 1) .int (.i 3) (.i p.nScales) ∧
  (∃ d, ValueIs atof occ (m + 2) .double (.d (toD 0x3fcccccd)) (.d d) ∧ p.sigma0 = toS d) ∧
  (∃ d, ValueIs atof occ (m + 3) .double (.d (toD 0x40800000)) (.d d) ∧ p.truncation = toS d) ∧
  ValueIs atof occ (m + 4) .int (.i 5) (.i p.border) ∧
  (∃ d, ValueIs atof occ (m + 5) .double (.d (toD 0x3d23d70a)) (.d d) ∧ p.peak = toS d) ∧
  (∃ d, ValueIs atof occ (m + 6) .double (.d (toD 0x41200000)) (.d d) ∧ p.edge = toS d) ∧
  ValueIs atof occ (m + 7) .int (.i 3) (.i p.magnification)

/-- What a call of `VGOptions` declares. -/
def VgDecl.decl : VgDecl → ODecl
  | .bool s _ q v => .opt .bool s (.b (if v then 1 else 0)) q
  | .int s _ q v => .opt .int s (.i v) q
  | .double s _ q v => .opt .double s (.d v) q
  | .string s _ q v => .opt .string s (.s (some v)) q
  | .rest _ q => .rest q
  | .help => .opt .help (bytesOf "-h|--help") .none false

end Nx
