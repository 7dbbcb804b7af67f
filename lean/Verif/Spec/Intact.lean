import Verif.Spec.Careful
import Verif.Model.Through
/-!
# What a program can rely on after misuse, exceptions and bad messages

`Graph.Intact` is about the graph's public queries only.
-/

namespace Verif

/-- The graph answers every query without undefined behaviour, and its pieces fit together. -/
structure Graph.Intact (g : Graph) : Prop where
  /-- queries about nodes -/
  nodes : ∀ n, g.findNode n ≠ .ub ∧ g.getNode n ≠ .ub ∧ g.getPosition n ≠ .ub ∧ g.checkNode n ≠ .ub
  /-- queries about edges -/
  edges : ∀ s t, g.hasEdge s t ≠ .ub ∧ g.findEdge s t ≠ .ub ∧ g.getEdge s t ≠ .ub
  /-- no known node is null or without attributes -/
  known : ∀ n, g.hasNode n = true → (∃ e, g.findNode n = .throw e) ∨ ∃ x a, g.findNode n = .ok (some x) ∧ x.attrs = some a
  /-- and `findNode` finds it, unless it is in a trajectory whose prefix has an index part -/
  found : ∀ n k, g.getLayerForNode n = some k → (∀ l p, k = .dyn l p → p.plain = true) → ∃ x a, g.findNode n = .ok (some x) ∧ x.attrs = some a
  /-- a node is known iff exactly one layer stores it -/
  stored : ∀ n k, g.getLayerForNode n = some k ↔ ∃ b, g.layerFromKey k = .ok b ∧ b.hasNode n = true
  /-- parents and children mirror each other … -/
  mirror : ∀ n m x y, g.findNode n = .ok (some x) → g.findNode m = .ok (some y) → x.parents.contains m = y.children.contains n
  /-- … and are in layers above and below -/
  parents : ∀ n m x, g.findNode n = .ok (some x) → x.parents.contains m = true → ∃ kn km, g.getLayerForNode n = some kn ∧
    g.getLayerForNode m = some km ∧ kn.layer < km.layer
  children : ∀ n m x, g.findNode n = .ok (some x) → x.children.contains m = true → ∃ kn km, g.getLayerForNode n = some kn ∧
    g.getLayerForNode m = some km ∧ km.layer < kn.layer
  /-- an edge within a layer is between two different nodes that list each other -/
  siblings : ∀ n m x y, g.getLayerForNode n = g.getLayerForNode m → g.hasEdge n m = .ok true → g.findNode n = .ok (some x) → g.findNode m = .ok (some y) →
    n ≠ m ∧ x.siblings.contains m = true ∧ y.siblings.contains n = true

/-- `Careful` for a program that catches every exception and goes on with the graph as the throwing call left it: the state a merge starts
from is the one such a program is in. -/
structure CarefulCaught (ids : List LayerId) (ops : List Op) : Prop where
  few : ops.length ≤ 2 ^ 32
  unmixed : ∀ a ∈ ops, ∀ b ∈ ops, ∀ k, a.appendsTo = some k → b.fillsIn ≠ some k
  attrs : ∀ i f t, ops[i]? = some (.mergeNodes f t) → ∀ op ∈ ops.take i, op.nullsEdge = false
  merges : ∀ i f t, ops[i]? = some (.mergeNodes f t) → ∀ g0 g outs, Graph.create ids = .ok g0 → g0.runCatching (ops.take i) = some (g, outs) →
    g.SafeMerge f t

end Verif
