import Verif.Model.Obs
/-! # What a clone is -/

namespace Verif

/-- What a clone keeps of a node: everything, except that a static node has no stamp. -/
def NodeInfo.cloned (i : NodeInfo) : NodeInfo := match i.key with | .static _ => { i with stamp := none } | .dyn _ _ => i

/-- `h` looks like `g`: layer ids, static layers, nodes (layer, stamp, attributes), edges (orientation, attributes), adjacency sets and
mesh. -/
structure Graph.Clones (h g : Graph) : Prop where
  layerIds : h.layerIds = g.layerIds
  layers : ∀ l, h.hasLayer l = g.hasLayer l
  nodes : ∀ n, h.nodeObs n = (g.nodeObs n).map NodeInfo.cloned
  edges : ∀ a b, h.edgeObs a b = g.edgeObs a b
  adj : ∀ n, h.adjObs n = g.adjObs n
  mesh : h.mesh = g.mesh
  /-- the dynamic layers of the clone are those that have a node -/
  dyns : ∀ l p, h.hasDynLayer l p = true ↔ ∃ n, g.getLayerForNode n = some (.dyn l p)

/-- No node of a dynamic layer has the last index of all, `2^32 - 1` (the index is in the low 32 bits of a node id): a node can be put at
its index only below that. -/
def Graph.IndexRoom (g : Graph) : Prop := ∀ n k, g.getLayerForNode n = some k → k.dynamic = true → n.toNat % 2 ^ 32 ≠ 2 ^ 32 - 1

end Verif
