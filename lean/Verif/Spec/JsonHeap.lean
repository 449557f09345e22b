import Verif.Model.JsonHeap

/-!
# Specification of JSON containers

Containers as lists: the abstract state keeps for every node what was added to it.
-/

namespace Nx

/-- Abstract node: type, what was added to it, and whether it was itself added to a
container. -/
structure SNode where
  type : JNT
  elems : List Nat
  members : List (Bytes × Nat)
  attached : Bool
deriving DecidableEq, Repr

/-- Effect of a construction call on the abstract state; `none` if the call is not
allowed: the container must be an array (object), the added node must exist and
must not have been added before. `objectAdd` creates the node for the key. -/
def sStep (S : List SNode) : JhOp → Option (List SNode)
  | .new type _ => some (S ++ [⟨type, [], [], false⟩])
  | .arrayAdd a c =>
    match S[a]?, S[c]? with
    | some A, some C =>
      if A.type = .array ∧ C.attached = false then
        let S := S.set c { C with attached := true }
        match S[a]? with
        | some A => some (S.set a { A with elems := A.elems ++ [c] })
        | none => none
      else none
    | _, _ => none
  | .objectAdd o name v =>
    match S[o]?, S[v]? with
    | some O, some V =>
      if O.type = .object ∧ V.attached = false then
        let S := S.set v { V with attached := true }
        match S[o]? with
        | some O => some (S.set o { O with members := O.members ++ [(name, v)] } ++ [⟨.string, [], [], true⟩])
        | none => none
      else none
    | _, _ => none

/-- Effect of a sequence of calls. -/
def sRun (S : List SNode) : List JhOp → Option (List SNode)
  | [] => some S
  | op :: ops => (sStep S op).bind (fun S => sRun S ops)

/-- A node passes the type mask of the lookup functions. -/
def sFilter (S : List SNode) (mask : Nat) (i : Nat) : Option Nat :=
  match S[i]? with
  | some N => if N.type.bit &&& mask ≠ 0 then some i else none
  | none => none

end Nx
