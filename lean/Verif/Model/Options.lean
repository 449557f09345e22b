import Verif.Model.CNum
import Verif.Model.Lexer

/-!
# Model of the command line options

`src/nx_options.c`.

Simplifications. Option records live in a list and the nodes of the name map refer to
them by position instead of by pointer. Strings are values; allocation, copying and
freeing of their memory and the program name's use in messages are not modelled; help
texts, usage texts and printing are in `Model/OptionsPrint.lean`. The end of the program after printing the usage help
(`exit`) is the outcome `fatal`. `atof` is a parameter. The hash of a name is computed
in `int`; its overflow is undefined in C, and the parameter `wrap` selects between the
outcome `ub` (`false`) and the two's complement wrap around of common compilers
(`true`).
-/

namespace Nx

/-- `enum NXOptionType`, `src/nx_options.c:41-48`, without the type of the rest record. -/
inductive OType
  | bool | int | double | string | help
deriving DecidableEq, Repr

/-- `union NXOptionValue`, `src/nx_options.c:50-56`. -/
inductive OVal
  | none
  | b (v : Int)
  | i (v : Int)
  | d (bits : UInt64)
  | s (v : Option Bytes)
deriving DecidableEq, Repr

/-- `struct NXOptionData`, `src/nx_options.c:58-69`. -/
structure OptData where
  shortName : Option Bytes
  name : Option Bytes
  type : OType
  value : OVal
  isRequired : Bool
  isSet : Bool
  dflt : OVal
deriving DecidableEq, Repr

/-- The record of the remaining arguments: `value.r` and `default_value.i`. -/
structure OptRest where
  isRequired : Bool
  isSet : Bool
  vals : Option (List (Option Bytes))
  n : Int
deriving DecidableEq, Repr

/-- `struct NXOptions`, `src/nx_options.c:77-91`. A node of the map is a key and the
position of its record. -/
structure Options where
  progName : Option Bytes
  nOptions : Int
  opts : List OptData
  map : List (List (Bytes × Nat))
  rest : Option OptRest
deriving DecidableEq, Repr

/-- `nx_options_alloc`, `nx_options_init_map`, `src/nx_options.c:129-142`, `:677-685`. -/
def optAlloc : Options :=
  { progName := none, nOptions := 0, opts := [], map := List.replicate 32 [], rest := none }

/-- Conversion to `int` of a value out of range, as common compilers do it. -/
def wrap32 (v : Int) : Int := (v + 2147483648) % 4294967296 - 2147483648

/-- One step of `nx_options_hash_code`, `src/nx_options.c:761`. -/
def hashStep (wrap : Bool) (h : Int) (b : Byte) : Res Int :=
  if wrap then .ok (wrap32 (h * 31 + schar b))
  else if InI32 (h * 31) ∧ InI32 (h * 31 + schar b) then .ok (h * 31 + schar b)
  else .ub

/-- `nx_options_hash_code`, `src/nx_options.c:755-765`. -/
def hashCode (wrap : Bool) (h : Int) : Bytes → Res Int
  | [] => .ok h
  | b :: s => do
    let h ← hashStep wrap h b
    hashCode wrap h s

/-- `abs(nx_options_hash_code(key) % OPTION_MAP_SIZE)`, `src/nx_options.c:692` and `:709`. -/
def bucketOf (wrap : Bool) (key : Bytes) : Res Nat := do
  let h ← hashCode wrap 0 key
  pure (Int.tmod h 32).natAbs

/-- `nx_options_add_to_map`, `src/nx_options.c:687-700`. -/
def optAddToMap (wrap : Bool) (map : List (List (Bytes × Nat))) (key : Bytes) (k : Nat) :
    Res (List (List (Bytes × Nat))) := do
  let b ← bucketOf wrap key
  let l ← readAt map b
  writeAt map b ((key, k) :: l)

/-- `nx_options_find_in_map`, `src/nx_options.c:702-718`; the argument may be NULL. -/
def optFind (wrap : Bool) (map : List (List (Bytes × Nat))) : Option Bytes → Res (Option Nat)
  | none => .ok none
  | some key => do
    let b ← bucketOf wrap key
    let l ← readAt map b
    pure ((l.find? (fun n => n.1 == key)).map Prod.snd)

/-- `strchr(opt_names, '|')` and the two names, `src/nx_options.c:881-890`. -/
def splitNames (s : Bytes) : Bytes × Option Bytes :=
  if (124 : Byte) ∈ s then
    let a := s.takeWhile (· != 124)
    (a, some (s.drop (a.length + 1)))
  else (s, none)

/-- One name, `src/nx_options.c:896-908`: short and long name afterwards. -/
def setName (names : Option Bytes × Option Bytes) (n : Bytes) : Res (Option Bytes × Option Bytes) :=
  if n.length < 2 then .fatal
  else if n[0]? ≠ some 45 then .fatal
  else if n.length > 2 then
    if n[1]? ≠ some 45 then .fatal else .ok (names.1, some n)
  else .ok (some n, names.2)

/-- `nx_option_data_set_names`, `src/nx_options.c:874-912`: short and long name. -/
def setNames : Option Bytes → Res (Option Bytes × Option Bytes)
  | none => .fatal
  | some s => do
    let p := splitNames s
    let r ← setName (none, none) p.1
    match p.2 with
    | none => pure r
    | some n => setName r n

/-- Adding a name to the map unless it is NULL, `src/nx_options.c:829-833`. -/
def optAddName (wrap : Bool) (map : List (List (Bytes × Nat))) (key : Option Bytes) (k : Nat) :
    Res (List (List (Bytes × Nat))) :=
  match key with
  | none => .ok map
  | some key => optAddToMap wrap map key k

/-- `nx_option_data_new`, the `nx_options_add_*` functions and `nx_option_data_add`,
`src/nx_options.c:599-637`, `:789-801`, `:820-836`; `nx_options_add_help`, `:177-185`, is
the case of type `help` without value. -/
def optAdd (wrap : Bool) (o : Options) (type : OType) (names : Option Bytes) (dflt : OVal) (required : Bool) :
    Res Options := do
  let n ← setNames names
  let f1 ← optFind wrap o.map n.2
  if f1 ≠ none then .fatal
  else do
    let f2 ← optFind wrap o.map n.1
    if f2 ≠ none then .fatal
    else do
      let k := o.opts.length
      let map ← optAddName wrap o.map n.2 k
      let map ← optAddName wrap map n.1 k
      pure { o with
        opts := o.opts ++ [OptData.mk n.1 n.2 type dflt required false dflt]
        map := map
        nOptions := o.nOptions + 1 }

/-- `nx_options_add_rest`, `src/nx_options.c:639-648`. -/
def optAddRest (o : Options) (required : Bool) : Options :=
  { o with rest := some { isRequired := required, isSet := false, vals := none, n := 0 } }

/-- `nx_options_add_help`, `src/nx_options.c:177-185`. -/
def optAddHelp (wrap : Bool) (o : Options) : Res Options :=
  optAdd wrap o .help (some (bytesOf "-h|--help")) .none false

/-- One call of the declaring functions. -/
inductive ODecl
  | opt (type : OType) (names : Bytes) (dflt : OVal) (required : Bool)
  | rest (required : Bool)
deriving DecidableEq, Repr

/-- Running one declaring call, `src/nx_options.c:177-185`, `:599-648`. -/
def optDeclare (wrap : Bool) (o : Options) : ODecl → Res Options
  | .opt type names dflt required => optAdd wrap o type (some names) dflt required
  | .rest required => .ok (optAddRest o required)

/-- A sequence of declaring calls. -/
def optDeclareAll (wrap : Bool) (o : Options) : List ODecl → Res Options
  | [] => .ok o
  | d :: ds => do
    let o ← optDeclare wrap o d
    optDeclareAll wrap o ds

/-- A variable argument of `nx_options_add`. -/
inductive OArg
  | str (s : Option Bytes)
  | int (v : Int)
  | dbl (bits : UInt64)
deriving DecidableEq, Repr

/-- One character of the format of `nx_options_vadd`, `src/nx_options.c:194-236`: the
options and the arguments left. Fetching an argument of another type is undefined. -/
def optVaddChar (wrap : Bool) (o : Options) (c : Byte) (args : List OArg) : Res (Options × List OArg) :=
  let required := decide (65 ≤ c ∧ c ≤ 90)
  let c := if required then c + 32 else c
  if c = 98 then
    match args with
    | .str n :: .str _ :: .int v :: args => do
      let o ← optAdd wrap o .bool n (.b v) required
      pure (o, args)
    | _ => .ub
  else if c = 105 then
    match args with
    | .str n :: .str _ :: .int v :: args => do
      let o ← optAdd wrap o .int n (.i v) required
      pure (o, args)
    | _ => .ub
  else if c = 100 then
    match args with
    | .str n :: .str _ :: .dbl v :: args => do
      let o ← optAdd wrap o .double n (.d v) required
      pure (o, args)
    | _ => .ub
  else if c = 115 then
    match args with
    | .str n :: .str _ :: .str v :: args => do
      let o ← optAdd wrap o .string n (.s v) required
      pure (o, args)
    | _ => .ub
  else if c = 114 then
    match args with
    | .str _ :: args => .ok (optAddRest o required, args)
    | _ => .ub
  else .fatal

/-- `nx_options_vadd`, `src/nx_options.c:187-238`, for a format that is not NULL. -/
def optVadd (wrap : Bool) (o : Options) : Bytes → List OArg → Res Options
  | [], _ => .ok o
  | c :: f, args => do
    let x ← optVaddChar wrap o c args
    optVadd wrap x.1 f x.2

/-- `nx_options_clear_set_flags`, `src/nx_options.c:587-597`. -/
def optClear (o : Options) : Options :=
  { o with
    opts := o.opts.map (fun d => { d with isSet := false })
    rest := o.rest.map (fun r => { r with isSet := false }) }

/-- `atol`, ISO C11 7.22.1.2: undefined when the value is no `long`. -/
def atol (s : Bytes) : Res Int :=
  let sg := takeSign (s.dropWhile isSpaceB)
  let v : Int := digitsVal 10 0 (sg.2.takeWhile (isDigitB 10))
  let v := if sg.1 then -v else v
  if -9223372036854775808 ≤ v ∧ v ≤ 9223372036854775807 then .ok v else .ub

/-- `needs_param`, `src/nx_options.c:320-321`. -/
def OType.needsParam (t : OType) : Bool := t == .int || t == .double || t == .string

/-- The value stored for an argument, `src/nx_options.c:331-350`; `none` is an option
without parameter. A `long` stored in an `int` wraps around. -/
def optValue (atof : Bytes → UInt64) : OType → Option Bytes → Res OVal
  | .bool, _ => .ok (.b 1)
  | .int, some v => do
    let x ← atol v
    pure (.i (wrap32 x))
  | .double, some v => .ok (.d (atof v))
  | .string, some v => .ok (.s (some v))
  | .help, _ => .fatal
  | _, none => .ub

/-- Storing the value of an option and its flag, `src/nx_options.c:331-352`. -/
def optStore (atof : Bytes → UInt64) (opts : List OptData) (k : Nat) (arg : Option Bytes) : Res (List OptData) := do
  let d ← readAt opts k
  let v ← optValue atof d.type arg
  writeAt opts k { d with value := v, isSet := true }

/-- The loop over the arguments, `src/nx_options.c:315-354`. -/
def optArgsLoop (wrap : Bool) (atof : Bytes → UInt64) (map : List (List (Bytes × Nat))) (argv : List Bytes)
    (i : Nat) (proc : List Bool) (opts : List OptData) : Res (List Bool × List OptData) :=
  if _h : i < argv.length then do
    let a ← readAt argv i
    let f ← optFind wrap map (some a)
    match f with
    | none => optArgsLoop wrap atof map argv (i + 1) proc opts
    | some k => do
      let d ← readAt opts k
      if d.type.needsParam then
        if i = argv.length - 1 then .fatal
        else do
          let proc ← writeAt proc i true
          let v ← readAt argv (i + 1)
          let opts ← optStore atof opts k (some v)
          let proc ← writeAt proc (i + 1) true
          optArgsLoop wrap atof map argv (i + 2) proc opts
      else do
        let opts ← optStore atof opts k none
        let proc ← writeAt proc i true
        optArgsLoop wrap atof map argv (i + 1) proc opts
  else .ok (proc, opts)
termination_by argv.length - i

/-- The counting loop of `nx_options_set_rest_from_args`, `src/nx_options.c:277-281`. -/
def restCount (argc : Nat) (proc : List Bool) (i n : Nat) : Res Nat :=
  if i < argc then do
    let p ← readAt proc i
    restCount argc proc (i + 1) (if p then n else n + 1)
  else .ok n
termination_by argc - i

/-- The copying loop of `nx_options_set_rest_from_args`, `src/nx_options.c:290-296`. -/
def restFill (argv : List Bytes) (proc : List Bool) (i j : Nat) (r : List (Option Bytes)) : Res (List (Option Bytes)) :=
  if i < argv.length then do
    let p ← readAt proc i
    if p then restFill argv proc (i + 1) j r
    else do
      let a ← readAt argv i
      let r ← writeAt r j (some a)
      restFill argv proc (i + 1) (j + 1) r
  else .ok r
termination_by argv.length - i

/-- `nx_options_set_rest_from_args`, `src/nx_options.c:273-300`. -/
def optSetRest (rest : OptRest) (argv : List Bytes) (proc : List Bool) : Res OptRest := do
  let n ← restCount argv.length proc 0 0
  let r ← restFill argv proc 0 0 (List.replicate (n + 1) none)
  pure { rest with vals := some r, n := n, isSet := if n > 0 then true else rest.isSet }

/-- The switch of `nx_options_check_required`, `src/nx_options.c:250-257`. -/
def optDefault (d : OptData) : OptData :=
  if d.type = .help then d else { d with value := d.dflt }

/-- The loop of `nx_options_check_required`, `src/nx_options.c:242-261`. -/
def optCheckLoop : List OptData → Res (List OptData)
  | [] => .ok []
  | d :: ds =>
    if d.isSet then do
      let ds ← optCheckLoop ds
      pure (d :: ds)
    else if d.isRequired then .fatal
    else do
      let ds ← optCheckLoop ds
      pure (optDefault d :: ds)

/-- The check of the remaining arguments, `src/nx_options.c:263-270`. -/
def optCheckRest : Option OptRest → Res (Option OptRest)
  | none => .ok none
  | some r =>
    if r.isSet then .ok (some r)
    else if r.isRequired then .fatal
    else if r.vals = none then .ok (some r)
    else .ok (some { r with vals := none, n := 0 })

/-- `nx_options_set_from_args`, `src/nx_options.c:302-368`, with `argc` the length of
`argv`. -/
def optSetFromArgs (wrap : Bool) (atof : Bytes → UInt64) (o : Options) (argv : List Bytes) : Res Options := do
  let o := optClear o
  let prog ← readAt argv 0
  let proc ← writeAt (List.replicate argv.length false) 0 true
  let x ← optArgsLoop wrap atof o.map argv 1 proc o.opts
  let rest ← (match o.rest with
    | none => .ok none
    | some r => do
      let r ← optSetRest r argv x.1
      pure (some r))
  let opts ← optCheckLoop x.2
  let rest ← optCheckRest rest
  pure { o with progName := some prog, opts := opts, rest := rest }

/-- Parsing several command lines one after another. -/
def optParseAll (wrap : Bool) (atof : Bytes → UInt64) (o : Options) : List (List Bytes) → Res Options
  | [] => .ok o
  | argv :: l => do
    let o ← optSetFromArgs wrap atof o argv
    optParseAll wrap atof o l

/-- `nx_options_get_rest`, `src/nx_options.c:437-446`. -/
def optGetRest (o : Options) : Option (List (Option Bytes)) := o.rest.bind OptRest.vals

/-- The record of an option, as the getters look it up, e.g. `src/nx_options.c:381-393`. -/
def optGet (wrap : Bool) (o : Options) (name : Bytes) (type : OType) : Res OVal := do
  let f ← optFind wrap o.map (some name)
  match f with
  | none => .fatal
  | some k => do
    let d ← readAt o.opts k
    if d.type ≠ type then .fatal else pure d.value

/-- `nx_options_is_set`, `src/nx_options.c:370-379`. -/
def optIsSet (wrap : Bool) (o : Options) (name : Bytes) : Res Bool := do
  let f ← optFind wrap o.map (some name)
  match f with
  | none => .fatal
  | some k => do
    let d ← readAt o.opts k
    pure d.isSet

end Nx
