import Verif.Model.Options

/-!
# What command line options mean

Independent of tables and loops: names, declarations, reading of an argument list.
-/

namespace Nx

/-- A short option name: a dash and one more character. -/
abbrev ShortName (n : Bytes) : Prop := n.length = 2 ∧ n[0]? = some 45

/-- A long option name: two dashes and at least one more character. -/
abbrev LongName (n : Bytes) : Prop := 2 < n.length ∧ n[0]? = some 45 ∧ n[1]? = some 45

/-- The texts separated by the first `|`. -/
inductive NameParts : Bytes → List Bytes → Prop
  | one (s : Bytes) : (124 : Byte) ∉ s → NameParts s [s]
  | two (a b : Bytes) : (124 : Byte) ∉ a → NameParts (a ++ 124 :: b) [a, b]

/-- The text of a declaration with one name, or with a short and a long name. -/
inductive NamesOf : Bytes → List Bytes → Prop
  | one (s : Bytes) : (124 : Byte) ∉ s → (ShortName s ∨ LongName s) → NamesOf s [s]
  | shortLong (a b : Bytes) : (124 : Byte) ∉ a → ShortName a → LongName b → NamesOf (a ++ 124 :: b) [a, b]
  | longShort (a b : Bytes) : (124 : Byte) ∉ a → LongName a → ShortName b → NamesOf (a ++ 124 :: b) [a, b]

/-- The names of each declared option. -/
inductive Decls : List ODecl → List (List Bytes) → Prop
  | nil : Decls [] []
  | opt (t : OType) (s : Bytes) (v : OVal) (q : Bool) (ns : List Bytes) (ds : List ODecl) (nss : List (List Bytes)) :
      NamesOf s ns → Decls ds nss → Decls (.opt t s v q :: ds) (ns :: nss)
  | rest (q : Bool) (ds : List ODecl) (nss : List (List Bytes)) : Decls ds nss → Decls (.rest q :: ds) nss

/-- The text `x` is a name of option number `k`. -/
def Named (nss : List (List Bytes)) (x : Bytes) (k : Nat) : Prop := ∃ ns, nss[k]? = some ns ∧ x ∈ ns

/-- No name is given to two options. -/
def DistinctNames (nss : List (List Bytes)) : Prop := ∀ x j k, Named nss x j → Named nss x k → j = k

/-- Type, default value and necessity of the declared options. -/
def declInfo : List ODecl → List (OType × OVal × Bool)
  | [] => []
  | .opt t _ v q :: ds => (t, v, q) :: declInfo ds
  | .rest _ :: ds => declInfo ds

/-- The necessity of the remaining arguments, if they were declared: the last
declaration counts. -/
def declRest : List ODecl → Option Bool
  | [] => none
  | .opt _ _ _ _ :: ds => declRest ds
  | .rest q :: ds =>
    match declRest ds with
    | none => some q
    | some q' => some q'

/-- The value of a text as a number to the base 31 with signed digits. -/
def polyHash (s : Bytes) : Int := s.foldl (fun h b => h * 31 + schar b) 0

/-- The hash of a text is computed without overflow, or overflow wraps around. -/
def Hashable (wrap : Bool) (s : Bytes) : Prop :=
  wrap = true ∨ ∀ k, k < s.length → InI32 (polyHash (s.take k) * 31) ∧ InI32 (polyHash (s.take (k + 1)))

/-- Reading an argument list from left to right: the options met, each with its
parameter if it takes one, and the arguments left. There is no reading when an
option lacks its parameter or when help is asked for. -/
inductive Scan (nss : List (List Bytes)) (types : List OType) :
    List Bytes → List (Nat × Option Bytes) → List Bytes → Prop
  | nil : Scan nss types [] [] []
  | other (a : Bytes) (as : List Bytes) (occ : List (Nat × Option Bytes)) (rem : List Bytes) :
      (∀ k, ¬ Named nss a k) → Scan nss types as occ rem → Scan nss types (a :: as) occ (a :: rem)
  | flag (a : Bytes) (k : Nat) (as : List Bytes) (occ : List (Nat × Option Bytes)) (rem : List Bytes) :
      Named nss a k → types[k]? = some .bool → Scan nss types as occ rem →
      Scan nss types (a :: as) ((k, none) :: occ) rem
  | param (a v : Bytes) (k : Nat) (t : OType) (as : List Bytes) (occ : List (Nat × Option Bytes)) (rem : List Bytes) :
      Named nss a k → types[k]? = some t → (t = .int ∨ t = .double ∨ t = .string) → Scan nss types as occ rem →
      Scan nss types (a :: v :: as) ((k, some v) :: occ) rem

/-- The last occurrence of option `k`. -/
def LastOcc (occ : List (Nat × Option Bytes)) (k : Nat) (v : Option Bytes) : Prop :=
  ∃ pre post, occ = pre ++ (k, v) :: post ∧ ∀ p ∈ post, p.1 ≠ k

/-- Option `k` does not occur. -/
def NeverOcc (occ : List (Nat × Option Bytes)) (k : Nat) : Prop := ∀ p ∈ occ, p.1 ≠ k

/-- The value an occurrence gives to an option of type `t`: a flag is switched on, an
integer is read in decimal by `atol` and reduced to 32 bits, a floating point number is
read by `atof`, a text is taken as it is. -/
inductive Gives (atof : Bytes → UInt64) : OType → Option Bytes → OVal → Prop
  | bool : Gives atof .bool none (.b 1)
  | int (v : Bytes) (x : Int) : atol v = .ok x → Gives atof .int (some v) (.i (wrap32 x))
  | double (v : Bytes) : Gives atof .double (some v) (.d (atof v))
  | string (v : Bytes) : Gives atof .string (some v) (.s (some v))

end Nx
