import Verif.Model.Obs
/-! # A concrete history used to show that the theorems' hypotheses can be met -/

namespace Verif.Sample

/-- default attributes -/
def at0 : NodeAttrs := .base {}
/-- other attributes -/
def at1 : NodeAttrs := .base { isActive := true, lastUpdate := 7 }
/-- the prefix 'a' -/
def pa : Prefix := 0x61000000
/-- the `i`-th node of the trajectory 'a' -/
def a (i : Nat) : NodeId := pa.makeId i

/-- layers of the sample -/
def ids : List LayerId := [2, 3, 4]

/-- Nodes in three static layers and a trajectory; edges inside layers, between static layers and between a
trajectory and a static layer; a removal, a merge, a reparenting, a back-filled layer, change-log queries and a
stale sweep. -/
def ops : List Op :=
  [.emplaceNode 2 10 at0, .emplaceNode 2 11 at0, .emplaceNode 2 12 at1, .emplaceNode 3 20 at0, .emplaceNode 3 21 at0,
   .emplaceNode 4 30 at0, .emplaceDyn 2 pa 100 at0 true, .emplaceDyn 2 pa 200 at0 true, .emplaceDyn 2 pa 300 at0 true,
   .insertEdge 10 11 none, .insertEdge 11 12 (some { weighted := true, weight := 5 }),
   .insertParentEdge 20 10 none, .insertParentEdge 21 10 none, .insertParentEdge 30 20 none,
   .insertEdge (a 0) 20 none, .newNodes true, .removedNodes false,
   .removeNode (a 1), .mergeNodes 11 10, .setNodeAttrs 20 at1, .emplacePrev 3 (Prefix.makeId 0x62000000 4) 9 at0,
   .markStale, .findEdge 10 12, .findEdge 21 10, .findEdge (a 0) 20, .addOrUpdateEdge 30 20 (some { weight := 1 }), .sweep, .newEdges true,
   .addOrUpdateNode 2 12 at0 none, .removeEdge 30 20, .insertEdge 10 12 none]

theorem ops_ok : Op.okAll (Spec.init ids) ops = true := by decide +kernel

/-- The state after the sample history. -/
def state : Graph :=
  match Graph.exec ids ops with
  | .ok (g, _) => g
  | _ => { layerIds := [] }

theorem reached : Reached ids ops state := by
  refine ⟨by decide, ops_ok, ?_⟩
  have h : (match Graph.exec ids ops with | .ok _ => true | _ => false) = true := by decide +kernel
  unfold state
  cases h' : Graph.exec ids ops with
  | ok r => exact ⟨r.2, rfl⟩
  | throw e => rw [h'] at h; cases h
  | ub => rw [h'] at h; cases h

end Verif.Sample
