import Verif.Model.Obs
import Verif.Spec.Codec
import Verif.Props.Binary
/-! # Specification for graphs in the binary format -/

namespace Verif

/-- What the binary format can represent: nodes of static layers carry no time stamp; every dynamic layer's id is one of the graph's layer
ids; no dynamic layer has a null slot (a removed or skipped node), or `2^32` slots; matrix members have the sizes of their C++ types. -/
structure Graph.Storable (g : Graph) : Prop where
  plain : ∀ n i, g.nodeObs n = some i → i.key.dynamic = false → i.stamp = none
  layers : ∀ n i, g.nodeObs n = some i → i.key.layer ∈ g.layerIds
  slots : ∀ d ∈ g.dynList, d.nodes.length < 2 ^ 32 ∧ none ∉ d.nodes
  typed : ∀ n i, g.nodeObs n = some i → i.attrs.Typed

/-- The reader (registries `R`, `Q`) knows every attribute class that the writer (`W`, `V`) uses for the nodes and edges of `g`, by name;
the writer registered no class twice, and at most 256. -/
structure Graph.Understood (g : Graph) (W R : Registry NodeClass) (V Q : Registry EdgeClass) : Prop where
  nodesOnce : W.Once
  edgesOnce : V.Once
  nodesFew : W.entries.length ≤ 256
  edgesFew : V.entries.length ≤ 256
  nodes : ∀ n i, g.nodeObs n = some i → ∃ name, (name, i.attrs.cls) ∈ W.entries ∧ R.find? name = some i.attrs.cls
  edges : ∃ name, (name, EdgeClass.base) ∈ V.entries ∧ Q.find? name = some .base

/-- The receiver `h` has no node of `g` in another layer or with another stamp, has no other node with the stamp of a node of `g` in the
same dynamic layer, and has no edges between different layers of the same layer id. -/
structure Graph.Accepts (h g : Graph) : Prop where
  shared : ∀ n i j, g.nodeObs n = some i → h.nodeObs n = some j → j.key = i.key ∧ j.stamp = i.stamp
  stamps : ∀ n m i j, g.nodeObs n = some i → h.nodeObs m = some j → i.key.dynamic = true → j.key = i.key → j.stamp = i.stamp → m = n
  cross : ∀ n, h.CrossFree n

/-- what a file keeps of a node -/
def NodeInfo.kept (i : NodeInfo) : NodeInfo := { i with attrs := i.attrs.kept }

/-- `h` has exactly the nodes, edges and adjacency of `g`, with the attributes that a file keeps. -/
structure Graph.Mirrors (h g : Graph) : Prop where
  layerIds : h.layerIds = g.layerIds
  nodes : ∀ n, h.nodeObs n = (g.nodeObs n).map NodeInfo.kept
  edges : ∀ a b, (h.edgeObs a b).map EdgeInfo.attrs = (g.edgeObs a b).map EdgeInfo.attrs
  adjacent : ∀ n, h.adjObs n = g.adjObs n

end Verif
