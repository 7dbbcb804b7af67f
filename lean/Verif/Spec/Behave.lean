import Verif.Model.Obs
/-! # A graph that behaves like an abstract graph -/

namespace Verif

/-- What read-only calls show of `g` is the abstract graph `σ`. -/
structure Graph.Shows (g : Graph) (σ : Spec) : Prop where
  layerIds : g.layerIds = σ.layerIds
  mesh : g.mesh = σ.mesh
  layers : ∀ l, g.hasLayer l = σ.layerIds.contains l
  dyns : ∀ l p, g.hasDynLayer l p = σ.dyn.contains (l, p)
  nodes : ∀ n, g.nodeObs n = σ.nodes.find? n
  edges : ∀ a b, g.edgeObs a b = σ.edge? a b
  hasEdge : ∀ a b, g.hasEdge a b = .ok (σ.hasEdge a b)
  adj : ∀ n, g.adjObs n = (σ.nodes.find? n).map (fun i => (σ.parents n i.key, σ.siblings n i.key, σ.children n i.key))

/-- `g` behaves like `σ` from now on: after every further history of well-behaved calls it has answered as `σ` does, and shows what `σ` has
become (the empty history: it shows `σ` now). -/
def Graph.Behaves (g : Graph) (σ : Spec) : Prop :=
  ∀ ops, Op.okAll σ ops = true →
    ∃ h outs, g.run ops = .ok (h, outs) ∧ Agree (σ.run ops).2 outs ∧ h.Shows (σ.after ops)

end Verif
