import Verif.Core

/-!
# Specification of the string array: a list of optional strings
-/

namespace Nx

/-- Calls on a string array. Indices and sizes are `int` arguments. -/
inductive SaOp where
  /-- `nx_string_array_append(sa, s)` with a string of the caller (or NULL) -/
  | append (s : Option Bytes)
  /-- `nx_string_array_appendf` producing the text `s` -/
  | appendf (s : Bytes)
  /-- `nx_string_array_append(sa, nx_string_array_get(sa, j))` -/
  | appendElem (j : Int)
  /-- `nx_string_array_resize(sa, n)` -/
  | resize (n : Int)
  /-- `nx_string_array_set(sa, i, s)` with a string of the caller (or NULL) -/
  | set (i : Int) (s : Option Bytes)
  /-- `nx_string_array_setf` producing the text `s` -/
  | setf (i : Int) (s : Bytes)
  /-- `nx_string_array_set(sa, i, nx_string_array_get(sa, j))` -/
  | setElem (i j : Int)
  /-- the string `nx_string_array_get(sa, i)` points to -/
  | get (i : Int)
  /-- `nx_string_array_size(sa)` -/
  | size
deriving DecidableEq, Repr

/-- What a call returns. -/
inductive SaObs where
  | unit
  | idx (n : Nat)
  | str (s : Option Bytes)
deriving DecidableEq, Repr

/-- Element access with the range assertion. -/
def listGet (l : List (Option Bytes)) (i : Int) : Res (Option Bytes) :=
  if 0 ≤ i then
    match l[i.toNat]? with
    | some v => .ok v
    | none => .fatal
  else .fatal

/-- Element update with the range assertion. -/
def listSet (l : List (Option Bytes)) (i : Int) (v : Option Bytes) : Res (List (Option Bytes)) :=
  if 0 ≤ i ∧ i < l.length then .ok (l.set i.toNat v) else .fatal

/-- The same call on a list. -/
def listStep (l : List (Option Bytes)) : SaOp → Res (List (Option Bytes) × SaObs)
  | .append s => .ok (l ++ [s], .idx l.length)
  | .appendf s => .ok (l ++ [some s], .idx l.length)
  | .appendElem j => do
    let v ← listGet l j
    pure (l ++ [v], .idx l.length)
  | .resize n =>
    if n < 0 then .fatal
    else .ok (l.take n.toNat ++ List.replicate (n.toNat - l.length) none, .unit)
  | .set i s => do
    let l ← listSet l i s
    pure (l, .unit)
  | .setf i s => do
    let l ← listSet l i (some s)
    pure (l, .unit)
  | .setElem i j => do
    let v ← listGet l j
    let l ← listSet l i v
    pure (l, .unit)
  | .get i => do
    let v ← listGet l i
    pure (l, .str v)
  | .size => .ok (l, .idx l.length)

/-- A history of calls on a list: all observations, and the final list. -/
def listRun (l : List (Option Bytes)) : List SaOp → Res (List (Option Bytes) × List SaObs)
  | [] => .ok (l, [])
  | op :: ops => do
    let (l, o) ← listStep l op
    let (l, os) ← listRun l ops
    pure (l, o :: os)

end Nx
