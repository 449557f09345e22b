import Verif.Model.FastThreshold

/-!
# Model of weighted graphs, `src/nx_graph.c`

A weight is the bit pattern of a `double`. `w == DBL_MAX` holds exactly for the
pattern of `DBL_MAX`. The names and the log messages are left out.
-/

namespace Nx

/-- `NX_ABSENT_EDGE_WEIGHT`, `include/virg/nexus/nx_graph.h:37`: `DBL_MAX`. -/
def absentWeight : BitVec 64 := 0x7FEFFFFFFFFFFFFF#64

/-- `struct NXGraphAdjMat`, `include/virg/nexus/nx_graph.h:39-44`. -/
structure AdjMat where
  nV : Int
  nE : Int
  weights : List (BitVec 64)
deriving DecidableEq, Repr

/-- `nx_graph_new_adj_mat`, `src/nx_graph.c:34-46`. -/
def adjMatNew (n : Int) : Res AdjMat :=
  if n ≥ 0 then
    if InI32 (n * n) then .ok ⟨n, 0, List.replicate (n * n).toNat absentWeight⟩ else .ub
  else .fatal

/-- Reading `weights[row * n_v + col]`. -/
def AdjMat.read (g : AdjMat) (row col : Int) : Res (BitVec 64) :=
  if 0 ≤ row * g.nV + col then readAt g.weights (row * g.nV + col).toNat else .ub

/-- `weights[row * n_v + col] = weight`. -/
def AdjMat.write (g : AdjMat) (row col : Int) (weight : BitVec 64) : Res AdjMat :=
  if 0 ≤ row * g.nV + col then do
    let ws ← writeAt g.weights (row * g.nV + col).toNat weight
    pure { g with weights := ws }
  else .ub

/-- The assertion `NX_ASSERT_INDEX(v, n)`, `include/virg/nexus/nx_assert.h:84-87`. -/
def assertIndex (v n : Int) : Res Unit := if 0 ≤ v ∧ v ≤ n - 1 then .ok () else .fatal

/-- `n_e++` if the edge is absent, `src/nx_graph.c:69-70`. -/
def AdjMat.countEdge (g : AdjMat) (old : BitVec 64) : AdjMat :=
  if old = absentWeight then { g with nE := g.nE + 1 } else g

/-- `nx_graph_insert_adj_mat`, `src/nx_graph.c:57-73`. -/
def adjMatInsert (g : AdjMat) (v w : Int) (weight : BitVec 64) : Res AdjMat := do
  assertIndex v g.nV
  assertIndex w g.nV
  if v = w then pure g
  else do
    let old ← g.read w v
    let g ← (g.countEdge old).write w v weight
    g.write v w weight

/-- `struct NXGraphAdjLst`, `include/virg/nexus/nx_graph.h:64-69`. The linked lists of
`struct NXGraphEdge` (`nx_graph.h:52-56`) are lists of target and weight: nodes are
created by `nx_graph_edge_new` and belong to one list. -/
structure AdjLst where
  nV : Int
  nE : Int
  edges : List (List (Int × BitVec 64))
deriving DecidableEq, Repr

/-- `nx_graph_new_adj_lst`, `src/nx_graph.c:113-127`. -/
def adjLstNew (n : Int) : Res AdjLst :=
  if n ≥ 0 then .ok ⟨n, 0, List.replicate n.toNat []⟩ else .fatal

/-- `nx_graph_edge_list_seach`, `src/nx_graph.c:102-111`: the weight in the node
found, `none` for NULL. -/
def edgeSearch : List (Int × BitVec 64) → Int → Option (BitVec 64)
  | [], _ => none
  | e :: l, v => if e.1 = v then some e.2 else edgeSearch l v

/-- `e->weight = weight` for the node `e` found by `nx_graph_edge_list_seach`. -/
def edgeSetWeight : List (Int × BitVec 64) → Int → BitVec 64 → List (Int × BitVec 64)
  | [], _, _ => []
  | e :: l, v, weight => if e.1 = v then (e.1, weight) :: l else e :: edgeSetWeight l v weight

/-- One half of the insertion, `src/nx_graph.c:152-156` and `158-162`. -/
def AdjLst.insertHalf (g : AdjLst) (v w : Int) (weight : BitVec 64) : Res AdjLst := do
  let l ← readAt g.edges v.toNat
  let l := match edgeSearch l w with
    | some _ => edgeSetWeight l w weight
    | none => (w, weight) :: l
  let es ← writeAt g.edges v.toNat l
  pure { g with edges := es }

/-- `nx_graph_insert_adj_lst`, `src/nx_graph.c:140-163`. -/
def adjLstInsert (g : AdjLst) (v w : Int) (weight : BitVec 64) : Res AdjLst := do
  assertIndex v g.nV
  assertIndex w g.nV
  if v = w then pure g
  else do
    let g ← g.insertHalf v w weight
    g.insertHalf w v weight

/-- A sequence of insertions (v, w, weight). -/
def adjMatRun (g : AdjMat) : List (Int × Int × BitVec 64) → Res AdjMat
  | [] => .ok g
  | (v, w, x) :: h => do
    let g ← adjMatInsert g v w x
    adjMatRun g h

def adjLstRun (g : AdjLst) : List (Int × Int × BitVec 64) → Res AdjLst
  | [] => .ok g
  | (v, w, x) :: h => do
    let g ← adjLstInsert g v w x
    adjLstRun g h

end Nx
