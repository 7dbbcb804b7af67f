import Verif.Spec.Behave
/-! # What `mergeGraph` is supposed to do -/

namespace Verif
namespace Graph

/-- The static layer `l` reports the node `n` as removed (`getRemovedNodes`). -/
def reportsNode (o : Graph) (l : LayerId) (n : NodeId) : Prop := ∃ x, o.layers.find? l = some x ∧ n ∈ (x.getRemovedNodes false).2

/-- The static layer `l` reports the edge between `a` and `b` as removed (`getRemoved`). -/
def reportsEdge (o : Graph) (l : LayerId) (a b : NodeId) : Prop :=
  ∃ x k, o.layers.find? l = some x ∧ k ∈ (x.edges.getRemoved false).2 ∧ EdgeKey.of k.k1 k.k2 = EdgeKey.of a b

/-- `checkNode` of the static layer `l` says that the node `n` was merged into another one. -/
def mergedAway (g : Graph) (l : LayerId) (n : NodeId) : Prop := ∃ x, g.layers.find? l = some x ∧ x.checkNode n = .merged

/-- Both ends in the same static layer `l`. -/
def inLayer (g : Graph) (l : LayerId) (a b : NodeId) : Prop := g.getLayerForNode a = some (.static l) ∧ g.getLayerForNode b = some (.static l)

/-- Two nodes are in the same dynamic layer. -/
def inTraj (o : Graph) (s t : NodeId) : Prop := ∃ l p, o.getLayerForNode s = some (.dyn l p) ∧ o.getLayerForNode t = some (.dyn l p)

/-- `c` is the lower end (by layer id) of the pair `a`, `b`, which lie on different levels. -/
def isLower (g : Graph) (c a b : NodeId) : Prop := ∃ ka kb, g.getLayerForNode a = some ka ∧ g.getLayerForNode b = some kb ∧
  ((c = a ∧ ka.layer < kb.layer) ∨ (c = b ∧ kb.layer < ka.layer))

/-- The end of an edge between layers whose parents the parent rule replaces: the target if it is lower, otherwise the source. -/
def childEnd (g : Graph) (s t : NodeId) : NodeId :=
  match g.getLayerForNode s, g.getLayerForNode t with
  | some ks, some kt => if kt.layer < ks.layer then t else s
  | _, _ => s

/-- The two graphs can be merged. -/
structure Mergeable (g o : Graph) (cfg : MergeConfig) : Prop where
  /-- a node of both is in the same layer of both -/
  home : ∀ n k k', g.getLayerForNode n = some k → o.getLayerForNode n = some k' → k = k'
  /-- a node `o` reports as removed is gone from `o`; if `g` has it, it is in that layer, without an edge to another layer of the same id -/
  removed : ∀ l n, g.hasLayer l = true → o.reportsNode l n →
    o.hasNode n = false ∧ (g.getLayerForNode n = none ∨ g.getLayerForNode n = some (.static l)) ∧ g.CrossFree n
  /-- trajectories of `o` have lost no node -/
  other : ∀ l p d, o.dynLayer? l p = some d → none ∉ d.nodes
  /-- those of `g` have lost no node either, and were filled by `emplaceNode` -/
  mine : ∀ l p d, o.hasDynLayer l p = true → g.dynLayer? l p = some d → none ∉ d.nodes ∧ d.next = d.nodes.length
  /-- what is to be appended to them has new stamps -/
  fresh : ∀ l p d e i x t, g.dynLayer? l p = some d → o.dynLayer? l p = some e → d.nodes.length ≤ i → e.nodes[i]? = some (some x) →
    x.timestamp = some t → d.times.contains t = false
  /-- with the parent rule, the id map keeps nodes in their layer -/
  map : cfg.enforceParent = true → ∀ n k k', o.getLayerForNode n = some k →
    (g.getLayerForNode (cfg.getMergedId n) = some k' ∨ o.getLayerForNode (cfg.getMergedId n) = some k') → k' = k

/-- The nodes of `g'` are those of `g`, updated from `o`. -/
structure NodesMerged (g' g o : Graph) (F : FloatOps) (cfg : MergeConfig) : Prop where
  layerIds : g'.layerIds = g.layerIds
  mesh : g'.mesh = g.mesh
  layers : ∀ l, g'.hasLayer l = g.hasLayer l
  dynLayers : ∀ l p, g'.hasDynLayer l p = (g.hasDynLayer l p || o.hasDynLayer l p)
  /-- removed from `o`: removed from `g'` -/
  removed : ∀ l n, g.hasLayer l = true → o.reportsNode l n → g'.nodeObs n = none
  /-- unknown to `o`: as it was -/
  kept : ∀ n, o.hasNode n = false → (∀ l, g.hasLayer l = true → ¬ o.reportsNode l n) → g'.nodeObs n = g.nodeObs n
  /-- a node of `o` in a static layer `g` does not have is left out -/
  foreign : ∀ n l, o.getLayerForNode n = some (.static l) → g.hasLayer l = false → g'.nodeObs n = none
  /-- so is one that was merged into another node of `g` -/
  away : ∀ n l, o.getLayerForNode n = some (.static l) → g.mergedAway l n → g'.nodeObs n = none
  /-- any other static node of `o` that is new to `g` is copied (without a stamp) -/
  newStatic : ∀ n l ts a, o.nodeObs n = some ⟨.static l, ts, a⟩ → g.hasLayer l = true → ¬ g.mergedAway l n → g.nodeObs n = none →
    g'.nodeObs n = some ⟨.static l, none, a⟩
  /-- a static node of both takes the attributes of `o` if the configuration allows it -/
  sharedStatic : ∀ n l ts a i, o.nodeObs n = some ⟨.static l, ts, a⟩ → g.nodeObs n = some i →
    g'.nodeObs n = some { i with attrs := if cfg.updates l && (cfg.updateArchived || i.attrs.isActive) then a else i.attrs }
  /-- a dynamic node of both takes the attributes of `o` except the position, if the configuration allows it -/
  sharedDyn : ∀ n l p ts a i, o.nodeObs n = some ⟨.dyn l p, ts, a⟩ → g.nodeObs n = some i →
    g'.nodeObs n = some { i with attrs := if cfg.updateDynamic then a.setPosition i.attrs.position else i.attrs }
  /-- a new trajectory is copied -/
  newTraj : ∀ n l p ts a, o.nodeObs n = some ⟨.dyn l p, ts, a⟩ → g.nodeObs n = none → (∀ d, g.dynLayer? l p = some d → d.nodes = []) →
    g'.nodeObs n = some ⟨.dyn l p, ts, a.setPosition (F.add a.position F.zero)⟩
  /-- the continuation of a trajectory of `g` is copied, shifted by the difference of the positions of the last node of both -/
  newDyn : ∀ n l p ts a d m i j, o.nodeObs n = some ⟨.dyn l p, ts, a⟩ → g.nodeObs n = none → g.dynLayer? l p = some d → d.nodes.length = m + 1 →
    g.nodeObs (p.makeId m) = some i → o.nodeObs (p.makeId m) = some j →
    g'.nodeObs n = some ⟨.dyn l p, ts, a.setPosition (F.add a.position (F.sub i.attrs.position j.attrs.position))⟩

/-- The edges of `g'` are those of `g` and of `o`. -/
structure EdgesMerged (g' g o : Graph) (cfg : MergeConfig) : Prop where
  /-- every edge of `g'` is an edge of `g` that `o` has not removed, or the image of an edge of `o` -/
  origin : ∀ a b e, g'.edgeObs a b = some e →
    (g.edgeObs a b = some e ∧ ∀ l, g.hasLayer l = true → o.reportsEdge l a b → ¬ g.inLayer l a b) ∨
    ∃ s t w s' t', o.edgeObs s t = some ⟨s, t, w⟩ ∧ e = ⟨s', t', w⟩ ∧ EdgeKey.of a b = EdgeKey.of s' t' ∧
      ((o.inTraj s t ∧ s' = s ∧ t' = t) ∨ (¬ o.inTraj s t ∧ s' = cfg.getMergedId s ∧ t' = cfg.getMergedId t))
  /-- an edge of `g` stays as it is unless `o` has removed it or one of its ends, or the parent rule replaces it -/
  kept : ∀ a b e, g.edgeObs a b = some e → (∀ l n, g.hasLayer l = true → o.reportsNode l n → n ≠ a ∧ n ≠ b) →
    (∀ l, g.hasLayer l = true → o.reportsEdge l a b → ¬ g.inLayer l a b) →
    (cfg.enforceParent = true → ∀ s t w, o.edgeObs s t = some ⟨s, t, w⟩ → o.getLayerForNode s ≠ o.getLayerForNode t →
      cfg.getMergedId s ≠ cfg.getMergedId t → EdgeKey.of (cfg.getMergedId s) (cfg.getMergedId t) ≠ EdgeKey.of a b →
      ¬ g.isLower (g'.childEnd (cfg.getMergedId s) (cfg.getMergedId t)) a b) →
    g'.edgeObs a b = some e
  /-- every edge of a trajectory of `o` is there -/
  traj : ∀ s t, o.hasEdge s t = .ok true → o.inTraj s t → g'.hasEdge s t = .ok true
  /-- an edge of a static layer of `o`, or its image, is there, if the image joins two distinct nodes of that layer of `g'` -/
  static : ∀ s t l, o.hasEdge s t = .ok true → o.inLayer l s t → g.hasLayer l = true → cfg.getMergedId s ≠ cfg.getMergedId t →
    g'.inLayer l (cfg.getMergedId s) (cfg.getMergedId t) →
    g'.hasEdge s t = .ok true ∨ g'.hasEdge (cfg.getMergedId s) (cfg.getMergedId t) = .ok true
  /-- without the parent rule, the image of an edge between layers is there if both of its ends are -/
  inter : cfg.enforceParent = false → ∀ s t, o.hasEdge s t = .ok true → o.getLayerForNode s ≠ o.getLayerForNode t →
    cfg.getMergedId s ≠ cfg.getMergedId t → g'.hasNode (cfg.getMergedId s) = true → g'.hasNode (cfg.getMergedId t) = true →
    g'.hasEdge (cfg.getMergedId s) (cfg.getMergedId t) = .ok true
  /-- with it, one of those edges that compete for the same child is there -/
  parent : cfg.enforceParent = true → ∀ s t w, o.edgeObs s t = some ⟨s, t, w⟩ → o.getLayerForNode s ≠ o.getLayerForNode t →
    cfg.getMergedId s ≠ cfg.getMergedId t → g'.hasNode (cfg.getMergedId s) = true → g'.hasNode (cfg.getMergedId t) = true →
    ∃ u v w, o.edgeObs u v = some ⟨u, v, w⟩ ∧ o.getLayerForNode u ≠ o.getLayerForNode v ∧
      g'.childEnd (cfg.getMergedId u) (cfg.getMergedId v) = g'.childEnd (cfg.getMergedId s) (cfg.getMergedId t) ∧
      g'.hasEdge (cfg.getMergedId u) (cfg.getMergedId v) = .ok true

end Graph
end Verif
