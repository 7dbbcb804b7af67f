import Verif.Spec.Graph
/-!
# Histories of API calls, on the abstract graph

`Op` is one public call of `DynamicSceneGraph` that can change something. `Spec.step` is its effect on the
abstract graph, with its answer (`none`: the answer is about the change log, which the abstract graph does
not have). `Op.ok σ op` says the call is not on the short list of misuses. This file does not import the
model of the code.
-/

namespace Verif

/-- A public call of `DynamicSceneGraph` (include/spark_dsg/dynamic_scene_graph.h:51-525). Attribute
pointers of nodes are non-null; a null edge attribute pointer is `none`. Read-only queries are not listed:
they are functions of the state. `findEdge` is listed because it clears a stale mark. -/
inductive Op
  | clear
  | reset (ids : List LayerId)
  | createDyn (l : LayerId) (p : Prefix)
  | emplaceNode (l : LayerId) (n : NodeId) (a : NodeAttrs)
  | insertNode (l : LayerId) (n : NodeId) (stamp : Option Stamp) (a : NodeAttrs)
  | emplaceDyn (l : LayerId) (p : Prefix) (t : Stamp) (a : NodeAttrs) (link : Bool)
  | emplacePrev (l : LayerId) (n : NodeId) (t : Stamp) (a : NodeAttrs)
  | addOrUpdateNode (l : LayerId) (n : NodeId) (a : NodeAttrs) (stamp : Option Stamp)
  | setNodeAttrs (n : NodeId) (a : NodeAttrs)
  | insertEdge (s t : NodeId) (info : Option EdgeAttrs)
  | insertParentEdge (s t : NodeId) (info : Option EdgeAttrs)
  | addOrUpdateEdge (s t : NodeId) (info : Option EdgeAttrs)
  | setEdgeAttrs (s t : NodeId) (a : EdgeAttrs)
  | findEdge (s t : NodeId)
  | removeNode (n : NodeId)
  | removeEdge (s t : NodeId)
  | mergeNodes (f t : NodeId)
  | setMesh (m : Option Mesh)
  | markStale
  | sweep
  | newNodes (clear : Bool)
  | removedNodes (clear : Bool)
  | newEdges (clear : Bool)
  | removedEdges (clear : Bool)

/-- What a call returns. -/
inductive Out
  | unit
  | bool (b : Bool)
  | edge (e : Option Edge)
  | nodes (l : List NodeId)
  | keys (l : List EdgeKey)
  deriving DecidableEq

namespace Spec

/-- Answer of a mutator that reports success. -/
def ans (r : Spec × Bool) : Spec × Option Out := (r.1, some (.bool r.2))

/-- Effect of a call on the abstract graph, and its answer. -/
def step (σ : Spec) : Op → Spec × Option Out
  | .clear => (σ.clear, some .unit)
  | .reset ids => (σ.reset ids, some .unit)
  | .createDyn l p => ans (σ.createDyn l p)
  | .emplaceNode l n a => ans (σ.emplaceNode l n none a)
  | .insertNode l n stamp a => ans (σ.emplaceNode l n stamp a)
  | .emplaceDyn l p t a link => ans (σ.emplaceDyn l p t a link)
  | .emplacePrev l n t a => ans (σ.emplacePrev l n t a)
  | .addOrUpdateNode l n a stamp => ans (σ.addOrUpdateNode l n a stamp)
  | .setNodeAttrs n a => ans (σ.setNodeAttrs n a)
  | .insertEdge s t info => ans (σ.insertEdge s t info)
  | .insertParentEdge s t info => ans (σ.insertParentEdge s t info)
  | .addOrUpdateEdge s t info => ans (σ.addOrUpdateEdge s t info)
  | .setEdgeAttrs s t a => ans (σ.setEdgeAttrs s t a)
  | .findEdge s t =>
    ((σ.findEdge s t).1, some (.edge ((σ.findEdge s t).2.map (fun e => ⟨e.src, e.tgt, some e.attrs⟩))))
  | .removeNode n => ans (σ.removeNode n)
  | .removeEdge s t => ans (σ.removeEdge s t)
  | .mergeNodes f t => ans (σ.mergeNodes f t)
  | .setMesh m => ({ σ with mesh := m }, some .unit)
  | .markStale => (σ.markStale, some .unit)
  | .sweep => (σ.sweep, some .unit)
  | .newNodes _ | .removedNodes _ | .newEdges _ | .removedEdges _ => (σ, none)

/-- Run a history, collecting the answers. -/
def run (σ : Spec) : List Op → Spec × List (Option Out)
  | [] => (σ, [])
  | op :: ops => ((run (σ.step op).1 ops).1, (σ.step op).2 :: (run (σ.step op).1 ops).2)

/-- The abstract graph after a history. -/
def after (σ : Spec) (ops : List Op) : Spec := (σ.run ops).1

@[simp] theorem after_nil (σ : Spec) : σ.after [] = σ := rfl
@[simp] theorem after_cons (σ : Spec) (op : Op) (ops : List Op) : σ.after (op :: ops) = (σ.step op).1.after ops := rfl
theorem after_append (σ : Spec) (a b : List Op) : σ.after (a ++ b) = (σ.after a).after b := by
  induction a generalizing σ with
  | nil => rfl
  | cons x a ih => exact ih _

/-- No edge of `n` goes to a node of another layer with the same layer id (two trajectories under one id,
or a static layer and a trajectory under one id). -/
def crossFree (σ : Spec) (n : NodeId) : Bool :=
  σ.nodes.toList.all (fun e =>
    !(σ.hasEdge n e.1 && decide ((σ.key? n).map LayerKey.layer = some e.2.key.layer) && decide (σ.key? n ≠ some e.2.key)))

/-- A dynamic node may be put at the index encoded in its id. -/
def prevOk (σ : Spec) (l : LayerId) (n : NodeId) (t : Stamp) : Bool :=
  (Prefix.fromId n).plain && decide (l ≠ UNKNOWN_LAYER) &&
  (σ.nodes.contains n || !σ.hasStamp (.dyn l (Prefix.fromId n)) t) &&
  decide ((Prefix.fromId n).index n + 1 < 2 ^ 32)

end Spec

/-- The call is not a misuse. Excluded:
* a layer whose id is the reserved "unknown" value;
* a dynamic layer prefix with an index part, more than `2^32` nodes in a dynamic layer;
* appending to a dynamic layer that has back-filled nodes;
* back-filling with a stamp the layer already has;
* `insertParentEdge` between two nodes of one layer;
* null edge attributes for an existing edge;
* `setEdgeAttributes`/`findEdge` with an unknown node;
* removing or merging a node with an edge into another layer of the same layer id;
* merging two nodes of one dynamic layer.

Each exclusion is shown necessary in `Props/Misuse.lean`. -/
def Op.ok (σ : Spec) : Op → Bool
  | .emplaceNode l _ _ | .insertNode l _ _ _ => decide (l ≠ UNKNOWN_LAYER)
  | .emplaceDyn l p _ _ _ => p.plain && decide (l ≠ UNKNOWN_LAYER) &&
      decide ((σ.dynInfo l p).next < 2 ^ 32) && decide ((σ.dynInfo l p).next = (σ.dynInfo l p).top)
  | .emplacePrev l n t _ => σ.prevOk l n t
  | .addOrUpdateNode l n _ stamp =>
    !σ.layerIds.contains l || σ.nodes.contains n ||
      match stamp with
      | some t => σ.prevOk l n t
      | none => decide (l ≠ UNKNOWN_LAYER)
  | .insertParentEdge s t _ => decide (σ.key? s = none) || decide (σ.key? s ≠ σ.key? t) || σ.hasEdge s t
  | .addOrUpdateEdge s t info => !σ.hasEdge s t || info.isSome
  | .setEdgeAttrs s t _ | .findEdge s t => σ.nodes.contains s && σ.nodes.contains t
  | .removeNode n => σ.crossFree n
  | .mergeNodes f t => σ.crossFree f &&
      match σ.key? f with
      | some (.dyn l p) => decide (f = t) || decide (σ.key? t ≠ some (.dyn l p))
      | _ => true
  | _ => true

/-- No call of the history is a misuse. -/
def Op.okAll (σ : Spec) : List Op → Bool
  | [] => true
  | op :: ops => op.ok σ && Op.okAll (σ.step op).1 ops

theorem Op.okAll_append (σ : Spec) (a b : List Op) :
    Op.okAll σ (a ++ b) = (Op.okAll σ a && Op.okAll (σ.after a) b) := by
  induction a generalizing σ with
  | nil => simp [Op.okAll]
  | cons x a ih => simp [Op.okAll, ih, Bool.and_assoc]

end Verif
