import Verif.Model.Types
/-!
# A layer, to its user: a simple undirected graph

Two finite partial functions, from ids to nodes and from unordered pairs to edges. No adjacency sets, no status tables. This file does
not import the model of the code.
-/

namespace Verif

/-- A simple graph. -/
structure LGraph where
  id : LayerId
  nodes : NodeId → Option Node
  edges : EdgeKey → Option Edge

/-- Operations of a stand-alone layer. -/
inductive LOp
  | emplaceNode (n : NodeId) (attrs : Option NodeAttrs)
  | insertNode (x : Node)
  | removeNode (n : NodeId)
  | mergeNodes (from_ to : NodeId)
  | insertEdge (s t : NodeId) (info : Option EdgeAttrs)
  | removeEdge (s t : NodeId)
  | rewireEdge (s t s' t' : NodeId)
  | findEdge (s t : NodeId)
  | newNodes (clear : Bool)
  | removedNodes (clear : Bool)

namespace LGraph

def empty (i : LayerId) : LGraph := ⟨i, fun _ => none, fun _ => none⟩

def hasNode (σ : LGraph) (n : NodeId) : Bool := (σ.nodes n).isSome
def hasEdge (σ : LGraph) (a b : NodeId) : Bool := (σ.edges (EdgeKey.of a b)).isSome

def setNode (σ : LGraph) (n : NodeId) (x : Option Node) : LGraph := { σ with nodes := fun m => if m = n then x else σ.nodes m }
def setEdge (σ : LGraph) (k : EdgeKey) (e : Option Edge) : LGraph := { σ with edges := fun j => if j = k then e else σ.edges j }

/-- the endpoint of the pair that is not `n` -/
def other (k : EdgeKey) (n : NodeId) : NodeId := if k.k1 = n then k.k2 else k.k1
/-- `n` is an endpoint -/
def touches (k : EdgeKey) (n : NodeId) : Bool := k.k1 == n || k.k2 == n

/-- Forget a node and its edges. -/
def removeNode (σ : LGraph) (n : NodeId) : LGraph :=
  { (σ.setNode n none) with edges := fun k => if touches k n then none else σ.edges k }

/-- Move an edge to another pair; if that pair is a loop or already has an edge, the edge just goes away. -/
def rewireEdge (σ : LGraph) (s t s' t' : NodeId) : LGraph :=
  match σ.edges (EdgeKey.of s t) with
  | none => σ
  | some e =>
    if s' = t' ∨ σ.hasEdge s' t' = true then σ.setEdge (EdgeKey.of s t) none
    else (σ.setEdge (EdgeKey.of s t) none).setEdge (EdgeKey.of s' t') (some ⟨s', t', e.info⟩)

/-- Merge `f` into `t`: `f` and its edges go away, and `t` gets an edge to each other neighbour of `f` it was not yet linked to,
with the attributes of the edge of `f`. -/
def mergeNodes (σ : LGraph) (f t : NodeId) : LGraph :=
  { (σ.setNode f none) with
    edges := fun k =>
      if touches k f then none
      else match σ.edges k with
        | some e => some e
        | none =>
          if k = EdgeKey.of t (other k t) ∧ other k t ≠ t then
            (match σ.edges (EdgeKey.of f (other k t)) with
             | some e => some ⟨t, other k t, e.info⟩
             | none => none)
          else none }

/-- Effect and Boolean answer of an operation. -/
def step (σ : LGraph) : LOp → LGraph × Bool
  | .emplaceNode n a => if σ.hasNode n then (σ, false) else (σ.setNode n (some { id := n, layer := σ.id, attrs := a }), true)
  | .insertNode x => if x.layer ≠ σ.id ∨ σ.hasNode x.id = true then (σ, false) else (σ.setNode x.id (some x), true)
  | .removeNode n => if σ.hasNode n then (σ.removeNode n, true) else (σ, false)
  | .mergeNodes f t => if σ.hasNode f && σ.hasNode t && f != t then (σ.mergeNodes f t, true) else (σ, false)
  | .insertEdge s t info =>
    if σ.hasNode s && σ.hasNode t && s != t && !σ.hasEdge s t then
      (σ.setEdge (EdgeKey.of s t) (some ⟨s, t, some (info.getD {})⟩), true)
    else (σ, false)
  | .removeEdge s t => if σ.hasEdge s t then (σ.setEdge (EdgeKey.of s t) none, true) else (σ, false)
  | .rewireEdge s t s' t' =>
    if σ.hasEdge s t && σ.hasNode s' && σ.hasNode t' && !(s == s' && t == t') then (σ.rewireEdge s t s' t', true) else (σ, false)
  | .findEdge s t => (σ, σ.hasEdge s t)
  | .newNodes _ => (σ, true)
  | .removedNodes _ => (σ, true)

/-- A history. -/
def run (σ : LGraph) : List LOp → LGraph × List Bool
  | [] => (σ, [])
  | op :: ops => (((σ.step op).1.run ops).1, (σ.step op).2 :: ((σ.step op).1.run ops).2)

end LGraph

/-- Nodes handed to `insertNode` are fresh: no adjacency (a user cannot set it). -/
def LOp.ok : LOp → Bool
  | .insertNode x => x.siblings.size == 0
  | _ => true

end Verif
