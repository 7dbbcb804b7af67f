import Verif.Model.Api
/-!
# Histories that may be careless, but not reckless

`Op.ok` (Spec/Api.lean) is what a call must respect for the graph to keep its meaning. `Careful` is much weaker: only the four things
that corrupt memory are excluded. Everything else `Op.ok` excludes is allowed here: the reserved layer id, prefixes with an index part,
duplicate stamps, parent edges inside a layer, null attributes for existing edges (as long as no merge follows), unknown endpoints,
removals and merges of nodes with edges between layers that share a layer id.
-/

namespace Verif

/-- The trajectory the call appends to. -/
def Op.appendsTo : Op → Option (LayerId × Prefix)
  | .emplaceDyn l p _ _ _ => some (l, p)
  | _ => none

/-- The trajectory in which the call fills a chosen index. -/
def Op.fillsIn : Op → Option (LayerId × Prefix)
  | .emplacePrev l n _ _ => some (l, Prefix.fromId n)
  | .addOrUpdateNode l n _ (some _) => some (l, Prefix.fromId n)
  | _ => none

/-- The call may replace the attributes of an edge by a null pointer. -/
def Op.nullsEdge : Op → Bool
  | .addOrUpdateEdge _ _ none => true
  | _ => false

/-- Merging two different nodes of one trajectory needs a static layer with the trajectory's layer id. -/
def Graph.SafeMerge (g : Graph) (f t : NodeId) : Prop :=
  f = t ∨ ∀ l p, g.getLayerForNode f = some (.dyn l p) → g.getLayerForNode t = some (.dyn l p) → g.hasLayer l = true

/-- No trajectory is both appended to and back-filled; at most `2^32` calls; merges come before null edge attributes and are not
between two nodes of a trajectory without static layer. -/
structure Careful (ids : List LayerId) (ops : List Op) : Prop where
  few : ops.length ≤ 2 ^ 32
  unmixed : ∀ a ∈ ops, ∀ b ∈ ops, ∀ k, a.appendsTo = some k → b.fillsIn ≠ some k
  attrs : ∀ i f t, ops[i]? = some (.mergeNodes f t) → ∀ op ∈ ops.take i, op.nullsEdge = false
  merges : ∀ i f t, ops[i]? = some (.mergeNodes f t) → ∀ g outs, Graph.exec ids (ops.take i) = .ok (g, outs) → g.SafeMerge f t

end Verif
