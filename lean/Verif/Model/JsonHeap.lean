import Verif.Model.Json

/-!
# Model of the JSON node functions with pointers, `src/nx_json_tree.c`

A node pointer is an index into the list of all nodes created so far (nodes are not
freed while a tree is built). Loops along `right` links are bounded by a fuel
parameter larger than the number of nodes; running out of it (a cyclic list) is the
outcome `ub`.
-/

namespace Nx

/-- `struct NXJSONNode`, `src/nx_json_tree.c:39-46`. -/
structure HNode where
  type : JNT
  text : Option Bytes
  right : Option Nat
  down : Option Nat
  last : Option Nat
deriving DecidableEq, Repr

/-- All nodes. -/
abbrev JHeap := List HNode

/-- `nx_json_node_new_composite/constant/variable`, `src/nx_json_tree.c:125-155`: the
new heap; the new node has the index `H.length`. -/
def jhNew (H : JHeap) (type : JNT) (text : Option Bytes) : JHeap := H ++ [⟨type, text, none, none, none⟩]

/-- The loop `src/nx_json_tree.c:389-390`. -/
def jhChase : Nat → JHeap → Nat → Res JHeap
  | 0, _, _ => .ub
  | fuel + 1, H, p => do
    let P ← readAt H p
    match P.last with
    | none => .ub
    | some q => do
      let Q ← readAt H q
      match Q.right with
      | none => pure H
      | some r => do
        let H ← writeAt H p { P with last := some r }
        jhChase fuel H p

/-- `nx_json_node_add_child`, `src/nx_json_tree.c:380-393`. -/
def jhAddChild (H : JHeap) (p c : Nat) : Res JHeap := do
  let P ← readAt H p
  let H ← (match P.last with
    | none => writeAt H p { P with down := some c, last := some c }
    | some q => do
      let Q ← readAt H q
      writeAt H q { Q with right := some c })
  jhChase (H.length + 2) H p

/-- `nx_json_array_add`, `src/nx_json_tree.c:395-402`. -/
def jhArrayAdd (H : JHeap) (a c : Nat) : Res JHeap := do
  let A ← readAt H a
  if A.type = .array then jhAddChild H a c else .fatal

/-- `nx_json_object_add`, `src/nx_json_tree.c:404-414`. -/
def jhObjectAdd (H : JHeap) (o : Nat) (name : Bytes) (v : Nat) : Res JHeap := do
  let O ← readAt H o
  if O.type = .object then do
    let k := H.length
    let H := jhNew H .string (some name)
    let K ← readAt H k
    let H ← writeAt H k { K with right := some v }
    jhAddChild H o k
  else .fatal

/-- The loop of `nx_json_node_n_children`, `src/nx_json_tree.c:231-234`. -/
def jhCount : Nat → JHeap → Option Nat → Res Nat
  | 0, _, _ => .ub
  | fuel + 1, H, c =>
    match c with
    | none => .ok 0
    | some i => do
      let N ← readAt H i
      let n ← jhCount fuel H N.right
      pure (n + 1)

/-- `nx_json_node_n_children`, `src/nx_json_tree.c:227-236`. -/
def jhNChildren (H : JHeap) (p : Nat) : Res Nat := do
  let P ← readAt H p
  jhCount (H.length + 1) H P.down

/-- `nx_json_node_is_a`, `src/nx_json_tree.c:217-220`, as the final filter of the
lookup functions. -/
def jhFilter (H : JHeap) (n : Option Nat) (mask : Nat) : Res (Option Nat) :=
  match n with
  | none => .ok none
  | some i => do
    let N ← readAt H i
    pure (if N.type.bit &&& mask ≠ 0 then some i else none)

/-- The loop of `nx_json_array_get`, `src/nx_json_tree.c:247-248`. -/
def jhWalk : Nat → JHeap → Option Nat → Int → Res (Option Nat)
  | 0, _, _, _ => .ub
  | fuel + 1, H, n, position =>
    match n with
    | none => .ok none
    | some i =>
      if position > 0 then do
        let N ← readAt H i
        jhWalk fuel H N.right (position - 1)
      else .ok (some i)

/-- `nx_json_array_get`, `src/nx_json_tree.c:238-254`. -/
def jhArrayGet (H : JHeap) (a : Nat) (position : Int) (mask : Nat) : Res (Option Nat) := do
  let A ← readAt H a
  if A.type ≠ .array then pure none
  else if A.down = none then pure none
  else do
    let n ← jhWalk (H.length + 1) H A.down position
    jhFilter H n mask

/-- The loop of `nx_json_object_get`, `src/nx_json_tree.c:265-269`. The text of a key
node that is NULL is undefined behaviour in `strcmp`. -/
def jhFind : Nat → JHeap → Option Nat → Bytes → Res (Option Nat)
  | 0, _, _, _ => .ub
  | fuel + 1, H, n, name =>
    match n with
    | none => .ok none
    | some i => do
      let N ← readAt H i
      match N.text with
      | none => .ub
      | some t =>
        if t = name then pure (some i)
        else
          match N.right with
          | none => jhFind fuel H none name
          | some j => do
            let M ← readAt H j
            jhFind fuel H M.right name

/-- `nx_json_object_get`, `src/nx_json_tree.c:256-279`. -/
def jhObjectGet (H : JHeap) (o : Nat) (name : Bytes) (mask : Nat) : Res (Option Nat) := do
  let O ← readAt H o
  if O.type ≠ .object then pure none
  else if O.down = none then pure none
  else do
    let n ← jhFind (H.length + 1) H O.down name
    match n with
    | none => pure none
    | some i => do
      let N ← readAt H i
      jhFilter H N.right mask

/-- Construction calls. -/
inductive JhOp
  /-- `nx_json_node_new_*` -/
  | new (type : JNT) (text : Option Bytes)
  | arrayAdd (a c : Nat)
  | objectAdd (o : Nat) (name : Bytes) (v : Nat)

/-- One construction call. -/
def jhStep (H : JHeap) : JhOp → Res JHeap
  | .new type text => .ok (jhNew H type text)
  | .arrayAdd a c => jhArrayAdd H a c
  | .objectAdd o name v => jhObjectAdd H o name v

/-- A sequence of construction calls. -/
def jhRun (H : JHeap) : List JhOp → Res JHeap
  | [] => .ok H
  | op :: ops => do
    let H ← jhStep H op
    jhRun H ops

end Nx
