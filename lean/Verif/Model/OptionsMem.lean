import Verif.Model.Ledger

/-!
# Model of the memory of the command line options, `src/nx_options.c`

Simplifications. What strings contain is not modelled, so the decisions that depend on it (which option an argument
names, which bucket a name has, whether an option was set, how many arguments are left over) are parameters; the
theorems hold for all of them. A wrong name or a missing option ends the program, which is not modelled here.
Lists of records are lists of addresses in the order of their `next` pointers.
-/

namespace Nx

/-- What `nx_option_data_free` distinguishes, `src/nx_options.c:41-48`. -/
inductive MOType
  | plain | string | rest
deriving DecidableEq, Repr

/-- The pointers of `struct NXOptionData`, `src/nx_options.c:58-69`; for the rest, `r` is `value.r` and `elems` are the
first `default_value.i` of its elements. -/
structure OMData where
  self : Nat
  shortName : Option Nat
  name : Option Nat
  type : MOType
  s : Option Nat
  dflt : Option Nat
  r : Option Nat
  elems : List (Option Nat)
  help : Option Nat
deriving DecidableEq, Repr

/-- `struct NXOptionMapNode`, `src/nx_options.c:71-75`, without its pointer to the option. -/
structure OMNode where
  self : Nat
  key : Option Nat
deriving DecidableEq, Repr

/-- `struct NXOptions`, `src/nx_options.c:77-91`. -/
structure OMOpts where
  self : Nat
  progName : Option Nat
  list : List OMData
  mapArr : Nat
  map : List (List OMNode)
  rest : Option OMData
  header : Option Nat
  footer : Option Nat
deriving DecidableEq, Repr

/-- `nx_options_alloc`, `src/nx_options.c:129-142`, and `nx_options_init_map`, `src/nx_options.c:677-685`. -/
def omAlloc (σ : Mem) : Mem × OMOpts :=
  let a := memAlloc σ
  let b := memAlloc a.1
  (b.1, ⟨a.2, none, [], b.2, List.replicate 32 [], none, none, none⟩)

/-- The body of the loop of `nx_option_data_set_names`, `src/nx_options.c:891-911`, for a name that is there; `long`
tells whether it has more than two characters. -/
def omSetName (σ : Mem) (d : OMData) (n : Nat) (long : Bool) : Res (Mem × OMData) := do
  memUse σ n
  if long then do
    let r ← memRedup σ d.name (.ptr n)
    let σ ← memFree r.1 (some n)
    pure (σ, { d with name := r.2 })
  else do
    let r ← memRedup σ d.shortName (.ptr n)
    let σ ← memFree r.1 (some n)
    pure (σ, { d with shortName := r.2 })

/-- `nx_option_data_set_names`, `src/nx_options.c:874-912`, with one or two names. -/
def omSetNames (σ : Mem) (d : OMData) (long : Bool) : Option Bool → Res (Mem × OMData)
  | none => do
    let n0 := memAlloc σ
    omSetName n0.1 d n0.2 long
  | some long1 => do
    let n0 := memAlloc σ
    let n1 := memAlloc n0.1
    let r ← omSetName n1.1 d n0.2 long
    omSetName r.1 r.2 n1.2 long1

/-- The source of a string argument that may be `NULL`. -/
def argSrc (given : Bool) : MSrc := if given then .ext else .null

/-- `nx_option_data_new`, `src/nx_options.c:789-801`. -/
def omDataNew (σ : Mem) (long : Bool) (long1 : Option Bool) (help : Bool) : Res (Mem × OMData) := do
  let a := memAlloc σ
  let r ← omSetNames a.1 ⟨a.2, none, none, .plain, none, none, none, [], none⟩ long long1
  let h ← memRedup r.1 r.2.help (argSrc help)
  pure (h.1, { r.2 with help := h.2 })

/-- `nx_option_map_node_new`, `src/nx_options.c:736-745`, and the end of `nx_options_add_to_map`,
`src/nx_options.c:697-699`; a name that is `NULL` is not added, `src/nx_options.c:829-833`. -/
def omAddToMap (σ : Mem) (map : List (List OMNode)) (key : Option Nat) (bid : Nat) : Res (Mem × List (List OMNode)) :=
  match key with
  | none => .ok (σ, map)
  | some k => do
    let n := memAlloc σ
    let d ← memRedup n.1 none (.ptr k)
    let b ← readAt map bid
    let map ← writeAt map bid (⟨n.2, d.2⟩ :: b)
    pure (d.1, map)

/-- `nx_option_data_add`, `src/nx_options.c:820-836`, and `nx_options_add_to_list`, `src/nx_options.c:662-675`. -/
def omDataAdd (σ : Mem) (o : OMOpts) (d : OMData) (bid bid1 : Nat) : Res (Mem × OMOpts) := do
  let r ← omAddToMap σ o.map d.name bid
  let q ← omAddToMap r.1 r.2 d.shortName bid1
  pure (q.1, { o with list := o.list ++ [d], map := q.2 })

/-- `nx_options_add_bool`, `add_int`, `add_double`, `src/nx_options.c:599-627`, and `nx_options_add_help`,
`src/nx_options.c:177-185`. -/
def omAddPlain (σ : Mem) (o : OMOpts) (long : Bool) (long1 : Option Bool) (help : Bool) (bid bid1 : Nat) :
    Res (Mem × OMOpts) := do
  let r ← omDataNew σ long long1 help
  omDataAdd r.1 o r.2 bid bid1

/-- `nx_options_add_string`, `src/nx_options.c:629-637`. -/
def omAddString (σ : Mem) (o : OMOpts) (long : Bool) (long1 : Option Bool) (help dflt : Bool) (bid bid1 : Nat) :
    Res (Mem × OMOpts) := do
  let r ← omDataNew σ long long1 help
  let s ← memRedup r.1 r.2.s (argSrc dflt)
  let t ← memRedup s.1 r.2.dflt (argSrc dflt)
  omDataAdd t.1 o { r.2 with type := .string, s := s.2, dflt := t.2 } bid bid1

/-- The freeing of strings in a row. -/
def omFreeAll (σ : Mem) : List (Option Nat) → Res Mem
  | [] => .ok σ
  | p :: ps => do
    let σ ← memFree σ p
    omFreeAll σ ps

/-- `nx_options_free_rest_data`, `src/nx_options.c:777-787`. -/
def omFreeRestData (σ : Mem) (d : OMData) : Res (Mem × OMData) :=
  match d.r with
  | none => .ok (σ, d)
  | some r => do
    memUse σ r
    let σ ← omFreeAll σ d.elems
    let σ ← memFree σ (some r)
    pure (σ, { d with r := none, elems := [] })

/-- The middle of `nx_option_data_free`, `src/nx_options.c:809-814`. -/
def omFreeValue (σ : Mem) (d : OMData) : Res Mem :=
  match d.type with
  | .string => do
    let σ ← memFree σ d.s
    memFree σ d.dflt
  | .rest => do
    let r ← omFreeRestData σ d
    pure r.1
  | .plain => .ok σ

/-- `nx_option_data_free`, `src/nx_options.c:803-818`. -/
def omDataFree (σ : Mem) (d : OMData) : Res Mem := do
  memUse σ d.self
  let σ ← memFree σ d.name
  let σ ← memFree σ d.shortName
  let σ ← memFree σ d.help
  let σ ← omFreeValue σ d
  memFree σ (some d.self)

/-- `nx_options_free_rest`, `src/nx_options.c:767-775`. -/
def omFreeRest (σ : Mem) : Option OMData → Res Mem
  | none => .ok σ
  | some d => omDataFree σ d

/-- `nx_options_add_rest`, `src/nx_options.c:639-648`; the names are `--`. -/
def omAddRest (σ : Mem) (o : OMOpts) (help : Bool) : Res (Mem × OMOpts) := do
  let r ← omDataNew σ false none help
  let σ ← omFreeRest r.1 o.rest
  pure (σ, { o with rest := some { r.2 with type := .rest } })

/-- `nx_strredup(&opt_data->value.s, …)` for the option at position `k` of the list: with an argument in
`nx_options_set_from_args`, `src/nx_options.c:340-342`. -/
def omSetString (σ : Mem) (o : OMOpts) (k : Nat) : Res (Mem × OMOpts) := do
  let d ← readAt o.list k
  match d.type with
  | .string => do
    let r ← memRedup σ d.s .ext
    let list ← writeAt o.list k { d with s := r.2 }
    pure (r.1, { o with list := list })
  | _ => pure (σ, o)

/-- The loop of `nx_options_set_from_args`, `src/nx_options.c:315-353`: `ks` are the options that the arguments name. -/
def omSetStrings (σ : Mem) (o : OMOpts) : List Nat → Res (Mem × OMOpts)
  | [] => .ok (σ, o)
  | k :: ks => do
    let r ← omSetString σ o k
    omSetStrings r.1 r.2 ks

/-- The copying of the arguments that are left over, `src/nx_options.c:290-296`: `n` of them. -/
def omDupAll (σ : Mem) : Nat → Res (Mem × List (Option Nat))
  | 0 => .ok (σ, [])
  | n + 1 => do
    let p ← memRedup σ none .ext
    let r ← omDupAll p.1 n
    pure (r.1, p.2 :: r.2)

/-- `nx_options_set_rest_from_args`, `src/nx_options.c:273-300`: `n` arguments are left over. -/
def omSetRest (σ : Mem) (d : OMData) (n : Nat) : Res (Mem × OMData) := do
  let r ← omFreeRestData σ d
  let a := memAlloc r.1
  let e ← omDupAll a.1 n
  pure (e.1, { r.2 with r := some a.2, elems := e.2 })

/-- The default for an option that was not set, `src/nx_options.c:244-259`. -/
def omDefault (σ : Mem) (d : OMData) (isSet : Bool) : Res (Mem × OMData) :=
  if isSet then .ok (σ, d)
  else match d.type with
    | .string => do
      let r ← memRedup σ d.s (MSrc.of d.dflt)
      pure (r.1, { d with s := r.2 })
    | _ => .ok (σ, d)

/-- The loop of `nx_options_check_required`, `src/nx_options.c:242-261`. -/
def omDefaults (isSet : Nat → Bool) (σ : Mem) : List OMData → Res (Mem × List OMData)
  | [] => .ok (σ, [])
  | d :: ds => do
    memUse σ d.self
    let r ← omDefault σ d (isSet d.self)
    let q ← omDefaults isSet r.1 ds
    pure (q.1, r.2 :: q.2)

/-- The rest in `nx_options_set_from_args`, `src/nx_options.c:355-356`, and then in `nx_options_check_required`,
`src/nx_options.c:263-270`. -/
def omRestArgs (σ : Mem) (n : Nat) : Option OMData → Res (Mem × Option OMData)
  | none => .ok (σ, none)
  | some d => do
    let r ← omSetRest σ d n
    pure (r.1, some r.2)

/-- The end of `nx_options_check_required`, `src/nx_options.c:263-270`: an empty rest is freed. -/
def omRestCheck (σ : Mem) (n : Nat) : Option OMData → Res (Mem × Option OMData)
  | none => .ok (σ, none)
  | some d =>
    if n = 0 then do
      let r ← omFreeRestData σ d
      pure (r.1, some r.2)
    else .ok (σ, some d)

/-- `nx_options_set_from_args`, `src/nx_options.c:302-368`. -/
def omSetFromArgs (σ : Mem) (o : OMOpts) (ks : List Nat) (n : Nat) (isSet : Nat → Bool) : Res (Mem × OMOpts) := do
  let p := memAlloc σ
  let g ← memRedup p.1 o.progName .ext
  let r ← omSetStrings g.1 { o with progName := g.2 } ks
  let q ← omRestArgs r.1 n r.2.rest
  let d ← omDefaults isSet q.1 r.2.list
  let c ← omRestCheck d.1 n q.2
  let σ ← memFree c.1 (some p.2)
  pure (σ, { r.2 with list := d.2, rest := c.2 })

/-- `nx_options_set_usage_header`, `src/nx_options.c:504-509`. -/
def omSetHeader (σ : Mem) (o : OMOpts) (given : Bool) : Res (Mem × OMOpts) := do
  let r ← memRedup σ o.header (argSrc given)
  pure (r.1, { o with header := r.2 })

/-- `nx_options_set_usage_footer`, `src/nx_options.c:511-516`. -/
def omSetFooter (σ : Mem) (o : OMOpts) (given : Bool) : Res (Mem × OMOpts) := do
  let r ← memRedup σ o.footer (argSrc given)
  pure (r.1, { o with footer := r.2 })

/-- The temporary strings of one line of `nx_options_print`, `src/nx_options.c:573-583`, and of
`nx_options_print_values`, `src/nx_options.c:453-461`. -/
def omPrintLine (σ : Mem) (d : OMData) : Res Mem := do
  memUse σ d.self
  let n := memAlloc σ
  let v := memAlloc n.1
  let σ ← memFree v.1 (some n.2)
  memFree σ (some v.2)

/-- The lines of `nx_options_print`. -/
def omPrint (σ : Mem) : List OMData → Res Mem
  | [] => .ok σ
  | d :: ds => do
    let σ ← omPrintLine σ d
    omPrint σ ds

/-- `nx_options_free_list`, `src/nx_options.c:650-660`. -/
def omFreeList (σ : Mem) : List OMData → Res Mem
  | [] => .ok σ
  | d :: ds => do
    memUse σ d.self
    let σ ← omDataFree σ d
    omFreeList σ ds

/-- `nx_option_map_node_free`, `src/nx_options.c:747-753`. -/
def omNodeFree (σ : Mem) (n : OMNode) : Res Mem := do
  memUse σ n.self
  let σ ← memFree σ n.key
  memFree σ (some n.self)

/-- The inner loop of `nx_options_free_map`, `src/nx_options.c:725-729`. -/
def omFreeBucket (σ : Mem) : List OMNode → Res Mem
  | [] => .ok σ
  | n :: ns => do
    let σ ← omNodeFree σ n
    omFreeBucket σ ns

/-- The outer loop of `nx_options_free_map`, `src/nx_options.c:724-730`. -/
def omFreeBuckets (σ : Mem) (arr : Nat) : List (List OMNode) → Res Mem
  | [] => .ok σ
  | b :: bs => do
    memUse σ arr
    let σ ← omFreeBucket σ b
    omFreeBuckets σ arr bs

/-- `nx_options_free`, `src/nx_options.c:154-165`. -/
def omFree (σ : Mem) (o : OMOpts) : Res Mem := do
  memUse σ o.self
  let σ ← memFree σ o.progName
  let σ ← omFreeList σ o.list
  let σ ← omFreeBuckets σ o.mapArr o.map
  let σ ← memFree σ (some o.mapArr)
  let σ ← omFreeRest σ o.rest
  let σ ← memFree σ o.header
  let σ ← memFree σ o.footer
  memFree σ (some o.self)

/-- What a program does with its options. -/
inductive OMOp
  | addPlain (long : Bool) (long1 : Option Bool) (help : Bool) (bid bid1 : Fin 32)
  | addString (long : Bool) (long1 : Option Bool) (help dflt : Bool) (bid bid1 : Fin 32)
  | addRest (help : Bool)
  | setFromArgs (ks : List Nat) (n : Nat) (isSet : Nat → Bool)
  | setHeader (given : Bool)
  | setFooter (given : Bool)
  | print

/-- One operation. -/
def omStep (σ : Mem) (o : OMOpts) : OMOp → Res (Mem × OMOpts)
  | .addPlain long long1 help b b1 => omAddPlain σ o long long1 help b b1
  | .addString long long1 help dflt b b1 => omAddString σ o long long1 help dflt b b1
  | .addRest help => omAddRest σ o help
  | .setFromArgs ks n isSet => omSetFromArgs σ o ks n isSet
  | .setHeader g => omSetHeader σ o g
  | .setFooter g => omSetFooter σ o g
  | .print => do
    let σ ← omPrint σ o.list
    pure (σ, o)

/-- A sequence of operations. -/
def omRun (σ : Mem) (o : OMOpts) : List OMOp → Res (Mem × OMOpts)
  | [] => .ok (σ, o)
  | op :: ops => do
    let r ← omStep σ o op
    omRun r.1 r.2 ops

end Nx
