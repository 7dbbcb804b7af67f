import Verif.Model.Views
import Verif.Model.Hull
/-! # Boxes around the nodes below a node: src/scene_graph_utilities.cpp:64-98 -/

namespace Verif
namespace Graph

/-- scene_graph_utilities.cpp:71-77 `NodeAdaptor::get` (the position of a node, as floats: Eigen's `cast<float>`). -/
def adaptorPoint (g : Graph) (n : NodeId) : Res V3f := do
  let p ← g.getPosition n
  return ⟨p.x.toFloat, p.y.toFloat, p.z.toFloat⟩

/-- The points of the adaptor, in the order the nodes were added. Simplified: the C++ code reads a point every time it needs it; it does not
change the graph meanwhile. -/
def adaptorPoints (g : Graph) : List NodeId → Res (List V3f)
  | [] => .ok []
  | n :: ns => do
    let p ← g.adaptorPoint n
    let ps ← g.adaptorPoints ns
    return p :: ps

/-- bounding_box_extraction.cpp:227-242 `extract`, of the points of a `NodeAdaptor`: no point is read for the types without a box. -/
def extractNodes (sort : (Nat → Nat → Bool) → List Nat → List Nat) (t : Hull.Trig) (g : Graph) (nodes : List NodeId) (type : UInt32) : Res BBox :=
  if nodes.isEmpty || type == BBox.INVALID then .ok {}
  else if type == BBox.AABB then do
    let ps ← g.adaptorPoints nodes
    match ps with
    | [] => .ub
    | p :: ps => return BBox.extractAABB p ps
  else if type == BBox.OBB then .ok {}
  else if type == BBox.RAABB then do
    let ps ← g.adaptorPoints nodes
    Hull.extractRAABB sort t ps
  else .ok {}

/-- scene_graph_utilities.cpp:85-98 `computeAncestorBoundingBox`. `none`: recursion deeper than `fuel`. The layer id becomes the key of a
static layer (scene_graph_types.cpp:88 `LayerKey(LayerId)`). -/
def ancestorBox (sort : (Nat → Nat → Bool) → List Nat → List Nat) (t : Hull.Trig) (g : Graph) (fuel : Nat) (parent : NodeId) (child : LayerId)
    (type : UInt32) : Option (Res BBox) :=
  match g.ancestorsOfLayer (.static child) fuel parent with
  | none => none
  | some r => some (r >>= fun nodes => g.extractNodes sort t nodes type)

end Graph
end Verif
