import Verif.Spec.Api
import Verif.Model.Obs
/-! # Specification: graphs with the same content, and histories that leave no empty slot in a trajectory -/

namespace Verif

/-- The same layer ids, nodes (layer, stamp, attributes), edges (orientation, attributes) and mesh. Not the change logs, not the trajectories
that exist but are empty, not the adjacency sets, not the index that a trajectory continues with, not the order in which all this was added. -/
structure Graph.SameContent (g h : Graph) : Prop where
  layerIds : g.layerIds = h.layerIds
  nodes : ∀ n, g.nodeObs n = h.nodeObs n
  edges : ∀ a b, g.edgeObs a b = h.edgeObs a b
  mesh : g.mesh = h.mesh

/-- A call that puts no node into a trajectory but at its end, and removes none. -/
def Op.appends : Op → Bool
  | .removeNode _ | .emplacePrev .. | .addOrUpdateNode _ _ _ (some _) => false
  | _ => true
/-- A call that is not `removeNode`. -/
def Op.adds : Op → Bool
  | .removeNode _ => false
  | _ => true
end Verif
