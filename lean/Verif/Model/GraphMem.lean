import Verif.Model.Ledger
import Verif.Model.Sample

/-!
# Model of the memory of graphs, `src/nx_graph.c`

Simplifications. Only which blocks are allocated and which vertex a node is for is recorded; weights and names are not, see
`Verif/Model/Graph.lean`. Vertices are natural numbers; negative ones fail the same assertions as too large ones.
-/

namespace Nx

/-- `struct NXGraphAdjLst`; each list has the blocks of its nodes with the vertices they are for. -/
structure MGraph where
  self : Nat
  name : Nat
  arr : Nat
  lists : List (List (Nat × Nat))
deriving DecidableEq, Repr

/-- `nx_graph_new_adj_lst`, `src/nx_graph.c:113-127`. -/
def gmNew (σ : Mem) (n : Nat) : Mem × MGraph :=
  let s := memAlloc σ
  let t := memAlloc s.1
  let a := memAlloc t.1
  (a.1, ⟨s.2, t.2, a.2, List.replicate n []⟩)

/-- `nx_graph_edge_list_free`, `src/nx_graph.c:93-100`: `next` is read before a node is freed. -/
def gmListFree : List (Nat × Nat) → Mem → Res Mem
  | [], σ => .ok σ
  | e :: es, σ => do
    memUse σ e.1
    let σ ← memFree σ (some e.1)
    gmListFree es σ

/-- The loop of `nx_graph_free_adj_lst`, `src/nx_graph.c:133-134`. -/
def gmListsFree (arr : Nat) : List (List (Nat × Nat)) → Mem → Res Mem
  | [], σ => .ok σ
  | es :: ls, σ => do
    memUse σ arr
    let σ ← gmListFree es σ
    gmListsFree arr ls σ

/-- `nx_graph_free_adj_lst`, `src/nx_graph.c:129-138`. -/
def gmFree (σ : Mem) (g : MGraph) : Res Mem := do
  memUse σ g.self
  let σ ← memFree σ (some g.name)
  let σ ← gmListsFree g.arr g.lists σ
  let σ ← memFree σ (some g.arr)
  memFree σ (some g.self)

/-- `nx_graph_edge_list_seach`, `src/nx_graph.c:102-111`. -/
def gmSearch (σ : Mem) (v : Nat) : List (Nat × Nat) → Res Bool
  | [] => .ok false
  | e :: es => do
    memUse σ e.1
    if e.2 = v then pure true else gmSearch σ v es

/-- Half of an insertion, `src/nx_graph.c:151-155` and `157-161`. -/
def gmHalf (σ : Mem) (g : MGraph) (v w : Nat) : Res (Mem × MGraph) := do
  memUse σ g.arr
  let es ← readAt g.lists v
  let found ← gmSearch σ w es
  if found then pure (σ, g)
  else
    let a := memAlloc σ
    pure (a.1, { g with lists := g.lists.set v ((a.2, w) :: es) })

/-- `nx_graph_insert_adj_lst`, `src/nx_graph.c:140-162`. -/
def gmInsert (σ : Mem) (g : MGraph) (v w : Nat) : Res (Mem × MGraph) := do
  memUse σ g.self
  if v < g.lists.length then
    if w < g.lists.length then
      if v = w then do
        memUse σ g.name
        pure (σ, g)
      else do
        let (σ, g) ← gmHalf σ g v w
        gmHalf σ g w v
    else .fatal
  else .fatal

/-- A graph with some edges. -/
def gmRun (σ : Mem) (n : Nat) (es : List (Nat × Nat)) : Res (Mem × MGraph) :=
  es.foldlM (fun s e => gmInsert s.1 s.2 e.1 e.2) (gmNew σ n)

/-- `struct NXGraphAdjMat`: the graph, its name and the weights. -/
structure MGraphMat where
  self : Nat
  name : Nat
  weights : Nat
deriving DecidableEq, Repr

/-- `nx_graph_new_adj_mat`, `src/nx_graph.c:34-46`. -/
def gxNew (σ : Mem) : Mem × MGraphMat :=
  let s := memAlloc σ
  let t := memAlloc s.1
  let a := memAlloc t.1
  (a.1, ⟨s.2, t.2, a.2⟩)

/-- `nx_graph_free_adj_mat`, `src/nx_graph.c:48-55`. -/
def gxFree (σ : Mem) (g : MGraphMat) : Res Mem := do
  memUse σ g.self
  let σ ← memFree σ (some g.name)
  let σ ← memFree σ (some g.weights)
  memFree σ (some g.self)

end Nx
