import Verif.Model.AncestorBox
import Verif.Spec.Box
import Verif.Spec.PyMesh
import Verif.Spec.Json
import Verif.Props.Descend
/-! # Specification of boxes around the nodes below a node -/

namespace Verif

/-- The coordinate of a position (in doubles) along an axis: an exact number. -/
def V3d.along (p : V3d) : Axis → ℚ
  | .x => p.x.real
  | .y => p.y.real
  | .z => p.z.real
/-- The position, each coordinate rounded to a float. -/
def V3d.rounded (p : V3d) : V3f := ⟨p.x.toFloat, p.y.toFloat, p.z.toFloat⟩

/-- Node `n` is below node `p` and in the (static) layer `l`. -/
def Graph.Under (g : Graph) (p : NodeId) (l : LayerId) (n : NodeId) : Prop := g.getLayerForNode n = some (.static l) ∧ g.Descends p n
/-- `v` is the position of a node below `p` in layer `l`. -/
def Graph.PlaceUnder (g : Graph) (p : NodeId) (l : LayerId) (v : V3d) : Prop := ∃ n, g.Under p l n ∧ g.getPosition n = .ok v
/-- No node has two parents. -/
def Graph.SingleParents (g : Graph) : Prop := ∀ a b x, g.HasChild a x → g.HasChild b x → a = b

end Verif
