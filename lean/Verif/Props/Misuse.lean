import Verif.Props.Sample
/-!
# C05, second half: every misuse excluded by `Op.ok` really breaks the graph

Each theorem gives a history that is well-behaved up to one excluded call and shows the fault or the broken
property that follows. These are facts about the code as written (concrete executions are the right kind of
proof for an existential claim).
-/

namespace Verif.Misuse
open Sample

/-- Last answer of a run. -/
def lastOut : Res (Graph × List Out) → Option Out
  | .ok (_, outs) => outs.getLast?
  | _ => none

/-- A query on the final graph; faults propagate. -/
def query {α : Type} (ids : List LayerId) (ops : List Op) (f : Graph → Res α) : Res α :=
  Graph.exec ids ops >>= fun r => f r.1

/-- The reserved layer id can hold nodes, but no edge can be added between them. -/
theorem unknown_layer_refuses_edges :
    lastOut (Graph.exec [UNKNOWN_LAYER] [.emplaceNode UNKNOWN_LAYER 1 at0, .emplaceNode UNKNOWN_LAYER 2 at0, .insertEdge 1 2 none])
      = some (.bool false) ∧
    query [UNKNOWN_LAYER] [.emplaceNode UNKNOWN_LAYER 1 at0, .emplaceNode UNKNOWN_LAYER 2 at0]
      (fun g => .ok (g.hasNode 1 && g.hasNode 2)) = .ok true := by decide +kernel

/-- With a prefix that has an index part, a node just added cannot be found: `findNode` throws. -/
theorem indexed_prefix_breaks_findNode :
    lastOut (Graph.exec [2] [.emplaceDyn 2 0x61000001 5 at0 false]) = some (.bool true) ∧
    query [2] [.emplaceDyn 2 0x61000001 5 at0 false] (fun g => g.findNode (Prefix.makeId 0x61000001 0))
      = .throw .outOfRange := by decide +kernel

/-- Index `2^32` of a trajectory has the same id as index `0` of the next prefix. -/
theorem index_overflow_collides (p : Prefix) (h : p.toNat + 1 < 2 ^ 32) : p.makeId (2 ^ 32) = Prefix.makeId (p + 1) 0 := by
  unfold Prefix.makeId
  rw [← UInt64.toNat_inj]
  simp [UInt64.toNat_add, UInt64.toNat_shiftLeft, UInt32.toNat_add, Nat.shiftLeft_eq]
  omega

/-- Appending after a back-fill: the appended node is known but `findNode` returns null, and removing it dereferences a
null pointer. -/
theorem append_after_backfill_is_ub :
    Op.okAll (Spec.init [2]) [.emplacePrev 2 (a 5) 7 at0] = true ∧
    query [2] [.emplacePrev 2 (a 5) 7 at0, .emplaceDyn 2 pa 8 at0 true] (fun g => .ok (g.hasNode (a 0))) = .ok true ∧
    query [2] [.emplacePrev 2 (a 5) 7 at0, .emplaceDyn 2 pa 8 at0 true] (fun g => g.findNode (a 0)) = .ok none ∧
    Graph.exec [2] [.emplacePrev 2 (a 5) 7 at0, .emplaceDyn 2 pa 8 at0 true, .removeNode (a 0)] = .ub := by decide +kernel

/-- Back-filling with a stamp already present: two nodes, but `numNodes` is 1. -/
theorem duplicate_stamp_miscounts :
    Op.okAll (Spec.init [2]) [.emplacePrev 2 (a 0) 7 at0] = true ∧
    query [2] [.emplacePrev 2 (a 0) 7 at0, .emplacePrev 2 (a 1) 7 at0]
      (fun g => .ok (g.hasNode (a 0) && g.hasNode (a 1), g.numNodes false)) = .ok (true, 1) := by decide +kernel

/-- `insertParentEdge` inside a layer reports success, but `hasEdge` does not see the edge (it is in the interlayer
container), and the same call succeeds again. -/
theorem parent_edge_in_layer_is_invisible :
    Op.okAll (Spec.init [2]) [.emplaceNode 2 1 at0, .emplaceNode 2 2 at0] = true ∧
    lastOut (Graph.exec [2] [.emplaceNode 2 1 at0, .emplaceNode 2 2 at0, .insertParentEdge 1 2 none]) = some (.bool true) ∧
    query [2] [.emplaceNode 2 1 at0, .emplaceNode 2 2 at0, .insertParentEdge 1 2 none] (fun g => g.hasEdge 1 2) = .ok false ∧
    query [2] [.emplaceNode 2 1 at0, .emplaceNode 2 2 at0, .insertParentEdge 1 2 none] (fun g => .ok (g.numEdges)) = .ok 1 ∧
    query [2] [.emplaceNode 2 1 at0, .insertParentEdge 1 1 none] (fun g => .ok (g.numEdges)) = .ok 1 := by decide +kernel

/-- Null attributes for an existing edge are stored; merging its endpoint then dereferences the null pointer. -/
theorem null_edge_attributes_is_ub :
    Op.okAll (Spec.init [2]) [.emplaceNode 2 1 at0, .emplaceNode 2 2 at0, .emplaceNode 2 3 at0, .insertEdge 1 2 none] = true ∧
    Graph.exec [2] [.emplaceNode 2 1 at0, .emplaceNode 2 2 at0, .emplaceNode 2 3 at0, .insertEdge 1 2 none,
      .addOrUpdateEdge 1 2 none, .mergeNodes 1 3] = .ub := by decide +kernel

/-- `findEdge` and `setEdgeAttributes` throw when an endpoint is unknown (instead of reporting "not found"). -/
theorem edge_lookup_of_unknown_node_throws :
    Graph.exec [2] [.emplaceNode 2 1 at0, .findEdge 1 2] = .throw .outOfRange ∧
    Graph.exec [2] [.emplaceNode 2 1 at0, .setEdgeAttrs 1 2 {}] = .throw .outOfRange := by decide +kernel

/-- Two trajectories under one layer id, with an edge between them. -/
def crossing : List Op := [.emplaceDyn 2 pa 1 at0 false, .emplaceDyn 2 0x62000000 1 at0 false,
  .insertEdge (a 0) (Prefix.makeId 0x62000000 0) none]

/-- Removing a node with an edge into another layer of the same layer id leaves the edge behind: it is still counted,
the neighbour still lists the removed node as sibling, and re-adding the node resurrects the edge. -/
theorem remove_crossing_leaves_dangling_edge :
    Op.okAll (Spec.init [2]) crossing = true ∧
    query [2] (crossing ++ [.removeNode (a 0)]) (fun g => .ok (g.hasNode (a 0), g.numEdges)) = .ok (false, 1) ∧
    query [2] (crossing ++ [.removeNode (a 0)]) (fun g => .ok (g.adjObs (Prefix.makeId 0x62000000 0)))
      = .ok (some (∅, (∅ : OSet NodeId).add (a 0), ∅)) ∧
    query [2] (crossing ++ [.removeNode (a 0), .emplacePrev 2 (a 0) 3 at0])
      (fun g => g.hasEdge (a 0) (Prefix.makeId 0x62000000 0)) = .ok true := by decide +kernel

/-- A static node with an edge to a trajectory under the same layer id. -/
def crossingStatic : List Op := [.emplaceNode 2 1 at0, .emplaceNode 2 2 at0, .emplaceDyn 2 pa 1 at0 false, .insertEdge 1 (a 0) none]

/-- Merging a node away that has such an edge loses it: the merged node's neighbour is not linked to the survivor, and a
dangling edge remains. -/
theorem merge_crossing_leaves_dangling_edge :
    Op.okAll (Spec.init [2]) crossingStatic = true ∧
    lastOut (Graph.exec [2] (crossingStatic ++ [.mergeNodes 1 2])) = some (.bool true) ∧
    query [2] (crossingStatic ++ [.mergeNodes 1 2]) (fun g => .ok (g.hasNode 1, g.numEdges)) = .ok (false, 1) ∧
    query [2] (crossingStatic ++ [.mergeNodes 1 2]) (fun g => g.hasEdge 2 (a 0)) = .ok false := by decide +kernel

/-- Merging two nodes of one trajectory: undefined behaviour if the layer id has no static layer, else an exception. -/
theorem merge_dynamic_faults :
    Op.okAll (Spec.init [3]) [.emplaceDyn 2 pa 1 at0 true, .emplaceDyn 2 pa 2 at0 true] = true ∧
    Graph.exec [3] [.emplaceDyn 2 pa 1 at0 true, .emplaceDyn 2 pa 2 at0 true, .mergeNodes (a 0) (a 1)] = .ub ∧
    Graph.exec [2] [.emplaceDyn 2 pa 1 at0 true, .emplaceDyn 2 pa 2 at0 true, .mergeNodes (a 0) (a 1)] = .throw .outOfRange := by
  decide +kernel

end Verif.Misuse
