import Verif.Spec.Behave
/-! # What `updateFromLayer` is supposed to do -/

namespace Verif

/-- A layer that was filled by `emplaceNode` and `insertNode` (node records filed under their ids, naming the layer, with attributes), and
whose own edges, as far as they touch nodes that are new to `g`, are in the table `es` and lead to nodes of the layer or of the same layer
of `g`. A layer without edges satisfies the last two conditions. -/
structure Layer.Offers (L : Layer) (g : Graph) (es : Option (OMap EdgeKey Edge)) : Prop where
  record : ∀ n x, L.findNode n = some x → x.id = n ∧ x.layer = L.id ∧ x.attrs.isSome = true
  plain : ∀ n x, L.findNode n = some x → g.hasNode n = false → x.parents = ∅ ∧ x.children = ∅
  listed : ∀ n x m, L.findNode n = some x → g.hasNode n = false → x.siblings.contains m = true →
    m ≠ n ∧ (∃ t e, es = some t ∧ t.find? (EdgeKey.of n m) = some e) ∧ (L.hasNode m = true ∨ g.getLayerForNode m = some (.static L.id))

/-- An edge table as the containers keep it: every edge under the key of its ends. Where the graph has the edge, the new attributes are
non-null. -/
structure EdgeTable (g : Graph) (es : OMap EdgeKey Edge) : Prop where
  key : ∀ k e, es.find? k = some e → k = EdgeKey.of e.source e.target
  info : ∀ k e, es.find? k = some e → g.hasEdge e.source e.target = .ok true → e.info.isSome = true

/-- `g'` is `g` with the nodes of `L` and the edges of `es` written over it. -/
structure Graph.UpdatedFrom (g' g : Graph) (L : Layer) (es : OMap EdgeKey Edge) : Prop where
  frame : g.SameFrame g'
  /-- a node the source does not have is as it was -/
  keptNode : ∀ n, L.hasNode n = false → g'.nodeObs n = g.nodeObs n
  /-- a shared node has the source's attributes, and keeps its layer and stamp -/
  sharedNode : ∀ n x a i, L.findNode n = some x → x.attrs = some a → g.nodeObs n = some i → g'.nodeObs n = some { i with attrs := a }
  /-- a node the graph did not have is as in the source -/
  newNode : ∀ n x a, L.findNode n = some x → x.attrs = some a → g.nodeObs n = none →
    g'.nodeObs n = some ⟨.static L.id, x.timestamp, a⟩
  /-- an edge that is not listed is as it was -/
  keptEdge : ∀ a b, es.find? (EdgeKey.of a b) = none → g'.edgeObs a b = g.edgeObs a b
  /-- a listed edge the graph has inside the layer takes the new attributes, and keeps its orientation -/
  sharedEdge : ∀ a b e w i, es.find? (EdgeKey.of a b) = some e → e.info = some w → g.edgeObs a b = some i →
    g'.getLayerForNode a = some (.static L.id) → g'.getLayerForNode b = some (.static L.id) → g'.edgeObs a b = some { i with attrs := w }
  /-- a listed edge the graph does not have is added, if it joins two distinct nodes of the layer -/
  newEdge : ∀ a b e, es.find? (EdgeKey.of a b) = some e → g.edgeObs a b = none → a ≠ b →
    g'.getLayerForNode a = some (.static L.id) → g'.getLayerForNode b = some (.static L.id) →
    g'.edgeObs a b = some ⟨e.source, e.target, e.info.getD {}⟩
  /-- any other listed edge changes nothing -/
  otherEdge : ∀ a b e, es.find? (EdgeKey.of a b) = some e →
    (a = b ∨ g'.getLayerForNode a ≠ some (.static L.id) ∨ g'.getLayerForNode b ≠ some (.static L.id)) → g'.edgeObs a b = g.edgeObs a b

end Verif
