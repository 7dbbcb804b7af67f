import Verif.Model.Graph
import Verif.Spec.Api
/-! # API calls and histories, on the model of the code -/

namespace Verif
namespace Graph

/-- Answer of a mutator that returns a `bool`. -/
def ans (r : Res (Graph × Bool)) : Res (Graph × Out) := r >>= fun x => .ok (x.1, .bool x.2)

/-- One public call (each case cites its lines in `Model/Graph.lean`). -/
def step (g : Graph) : Op → Res (Graph × Out)
  | .clear => .ok (g.clear, .unit)
  | .reset ids => .ok (g.reset ids, .unit)
  | .createDyn l p => ans (.ok (g.createDynamicLayer l p))
  | .emplaceNode l n a => ans (.ok (g.emplaceNode l n (some a)))
  | .insertNode l n stamp a => ans (.ok (g.insertNode (some (n, l, stamp, some a))))
  | .emplaceDyn l p t a link => ans (g.emplaceDyn l p t (some a) link)
  | .emplacePrev l n t a => ans (g.emplacePrev l n t (some a))
  | .addOrUpdateNode l n a stamp => ans (g.addOrUpdateNode l n (some a) stamp)
  | .setNodeAttrs n a => ans (g.setNodeAttributes n (some a))
  | .insertEdge s t info => ans (g.insertEdge s t info)
  | .insertParentEdge s t info => ans (g.insertParentEdge s t info)
  | .addOrUpdateEdge s t info => ans (g.addOrUpdateEdge s t info)
  | .setEdgeAttrs s t a => ans (g.setEdgeAttributes s t (some a))
  | .findEdge s t => g.findEdge s t >>= fun r => .ok (r.1, .edge r.2)
  | .removeNode n => ans (g.removeNode n)
  | .removeEdge s t => ans (g.removeEdge s t)
  | .mergeNodes f t => ans (g.mergeNodes f t)
  | .setMesh m => .ok (g.setMesh m, .unit)
  | .markStale => .ok (g.markEdgesAsStale, .unit)
  | .sweep => g.removeAllStaleEdges >>= fun g => .ok (g, .unit)
  | .newNodes c => .ok ((g.getNewNodes c).1, .nodes (g.getNewNodes c).2)
  | .removedNodes c => .ok ((g.getRemovedNodes c).1, .nodes (g.getRemovedNodes c).2)
  | .newEdges c => .ok ((g.getNewEdges c).1, .keys (g.getNewEdges c).2)
  | .removedEdges c => .ok ((g.getRemovedEdges c).1, .keys (g.getRemovedEdges c).2)

/-- Run a history, collecting the answers; stops at the first fault. -/
def run (g : Graph) : List Op → Res (Graph × List Out)
  | [] => .ok (g, [])
  | op :: ops => g.step op >>= fun r => run r.1 ops >>= fun r' => .ok (r'.1, r.2 :: r'.2)

/-- Construct a graph and run a history on it. -/
def exec (ids : List LayerId) (ops : List Op) : Res (Graph × List Out) :=
  create ids >>= fun g => g.run ops

end Graph
end Verif
