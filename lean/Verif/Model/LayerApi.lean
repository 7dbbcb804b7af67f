import Verif.Model.Layer
import Verif.Spec.Layer
import Verif.Spec.EdgeMap
/-! # Histories on a stand-alone layer (scene_graph_layer.h:298-319 `IsolatedSceneGraphLayer`) -/

namespace Verif
namespace Layer

/-- One public call, with its Boolean answer (`findEdge`: found or null; change-log queries: `true`). -/
def step (l : Layer) : LOp → Res (Layer × Bool)
  | .emplaceNode n a => .ok (l.emplaceNode n a)
  | .insertNode x => .ok (l.insertNode x)
  | .removeNode n => l.removeNode n
  | .mergeNodes f t => l.mergeNodes f t
  | .insertEdge s t info => l.insertEdge s t info
  | .removeEdge s t => l.removeEdge s t
  | .rewireEdge s t s' t' => l.rewireEdge s t s' t'
  | .findEdge s t => .ok ((l.findEdge s t).1, (l.findEdge s t).2.isSome)
  | .newNodes c => .ok ((l.getNewNodes c).1, true)
  | .removedNodes c => .ok ((l.getRemovedNodes c).1, true)

/-- A sequence of calls. -/
def run (l : Layer) : List LOp → Res (Layer × List Bool)
  | [] => .ok (l, [])
  | op :: ops => l.step op >>= fun r => r.1.run ops >>= fun q => .ok (q.1, r.2 :: q.2)

/-- A layer is consistent when its edges join two different nodes of the layer, and the siblings of each node are exactly the nodes it has
an edge with. -/
structure Consistent (l : Layer) : Prop where
  ends : ∀ a b, l.hasEdge a b = true → a ≠ b ∧ l.hasNode a = true ∧ l.hasNode b = true
  siblings : ∀ n x, l.findNode n = some x → ∀ m, x.siblings.contains m = true ↔ l.hasEdge n m = true

/-- The edge relation of a layer. -/
def Linked (l : Layer) (a b : NodeId) : Prop := l.hasEdge a b = true

end Layer

namespace EdgeContainer

/-- One public call on an edge container (edge_container.h:106-141). -/
def step (c : EdgeContainer) : EOp → Res EdgeContainer
  | .insert s t info => .ok (c.insert s t info)
  | .remove s t => c.remove s t
  | .rewire s t s' t' => c.rewire s t s' t'
  | .find s t => .ok (c.find s t).1
  | .setInfo s t info => .ok ((c.find s t).1.setInfo (EdgeKey.of s t) (some info))
  | .reset => .ok c.reset
  | .getNew clear => .ok (c.getNew clear).1
  | .getRemoved clear => .ok (c.getRemoved clear).1
  | .setStale => .ok c.setStale

/-- A sequence of calls, up to the first one that throws. -/
def run (c : EdgeContainer) : List EOp → Res EdgeContainer
  | [] => .ok c
  | op :: ops => c.step op >>= fun c' => c'.run ops

end EdgeContainer
end Verif
