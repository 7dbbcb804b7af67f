import Verif.Model.Api
/-!
# Observations

What a user can learn about a graph through read-only public calls, as plain functions. Used to state
properties. Each is built only from modelled public calls.
-/

namespace Verif
namespace Graph

/-- All that `getLayerForNode(n)` and `findNode(n)` reveal about `n`, except the adjacency sets: layer,
stamp, attributes (`none` if the node is unknown, its record missing, or its attributes null). -/
def nodeObs (g : Graph) (n : NodeId) : Option NodeInfo :=
  match g.getLayerForNode n, g.findNode n with
  | some k, .ok (some x) => if x.id = n ∧ x.layer = k.layer then x.attrs.map (fun a => ⟨k, x.timestamp, a⟩) else none
  | _, _ => none

/-- What `findEdge(a, b)` reveals: orientation and attributes (`none` if it finds nothing or throws). -/
def edgeObs (g : Graph) (a b : NodeId) : Option EdgeInfo :=
  match g.findEdge a b with
  | .ok (_, some e) => e.info.map (fun i => ⟨e.source, e.target, i⟩)
  | _ => none

/-- Parents, siblings and children of a known node. -/
def adjObs (g : Graph) (n : NodeId) : Option (OSet NodeId × OSet NodeId × OSet NodeId) :=
  match g.findNode n with
  | .ok (some x) => some (x.parents, x.siblings, x.children)
  | _ => none

/-- dynamic_scene_graph.cpp:333-343 `hasLayer(l)` and `hasLayer(l, p)`. -/
def hasLayerKey (g : Graph) : LayerKey → Bool
  | .static l => g.hasLayer l
  | .dyn l p => g.hasDynLayer l p

/-- The edge containers of a graph, by place: that of each layer, `interlayer_edges()` and
`dynamic_interlayer_edges()`. -/
def container (g : Graph) : Place → Option EdgeContainer
  | .within k => match g.layerFromKey k with
    | .ok b => some b.ec
    | _ => none
  | .across false => some g.inter
  | .across true => some g.dynInter

/-- No edge of `n` goes to a node of another layer with the same layer id. -/
def CrossFree (g : Graph) (n : NodeId) : Prop :=
  ∀ m kn km, g.hasEdge n m = .ok true → g.getLayerForNode n = some kn → g.getLayerForNode m = some km →
    km.layer = kn.layer → km = kn

/-- Layers, layer ids and mesh are the same. -/
def SameFrame (g g' : Graph) : Prop :=
  g'.layerIds = g.layerIds ∧ g'.mesh = g.mesh ∧ ∀ k, g'.hasLayerKey k = g.hasLayerKey k

end Graph

/-- A graph with no nodes, edges or dynamic layers. -/
def Spec.init (ids : List LayerId) : Spec := { layerIds := ids }

/-- `g` is the result of constructing a graph with layers `ids` and running the well-behaved history `ops`
on it. -/
structure Reached (ids : List LayerId) (ops : List Op) (g : Graph) : Prop where
  nonempty : ids ≠ []
  ok : Op.okAll (Spec.init ids) ops = true
  run : ∃ outs, Graph.exec ids ops = .ok (g, outs)

/-- The collected answers agree with the abstract ones, wherever the abstract graph determines them. -/
def Agree : List (Option Out) → List Out → Prop
  | [], [] => True
  | none :: a, _ :: b => Agree a b
  | some o :: a, o' :: b => o' = o ∧ Agree a b
  | _, _ => False

end Verif
