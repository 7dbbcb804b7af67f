import Verif.Lemmas.Merge17
import Verif.Props.Merge
/-! # C76: merging the same graph again -/

namespace Verif

section
variable {ids ids' : List LayerId} {ops ops' : List Op} {g o g' o' : Graph}

/-- **C76.** After `mergeGraph` of two graphs that fit together, the result and the other graph fit together again: the second call succeeds,
leaves every node (its layer, time stamp and attributes), the layer ids, the mesh and the set of layers as the first call left them, and keeps
all its promises about edges. -/
theorem C76_merge_again (hg : Reached ids ops g) (ho : Reached ids' ops' o) (F : FloatOps) (cfg : MergeConfig) (hM : g.Mergeable o cfg) {b : Bool}
    (e : g.mergeGraph F o cfg = .ok (g', o', b)) :
    g'.Mergeable o cfg ∧ ∃ g'' o'' more, g'.mergeGraph F o cfg = .ok (g'', o'', true) ∧
      (∀ n, g''.nodeObs n = g'.nodeObs n) ∧ g''.layerIds = g'.layerIds ∧ g''.mesh = g'.mesh ∧
      (∀ l, g''.hasLayer l = g'.hasLayer l) ∧ (∀ l p, g''.hasDynLayer l p = g'.hasDynLayer l p) ∧
      g''.EdgesMerged g' o cfg ∧ Reached ids (ops ++ more) g'' := by
  obtain ⟨r0, w0⟩ := hg.rep
  obtain ⟨ro, wo⟩ := ho.rep
  have to := Spec.tops_after (Spec.tops_empty rfl) ho.ok
  obtain ⟨g1, ol, e1, hm, -, -⟩ := r0.merging (F := F) w0 (Spec.tops_after (Spec.tops_empty rfl) hg.ok) ro wo to hM
  rw [e] at e1
  simp only [Res.ok.injEq, Prod.mk.injEq] at e1
  obtain ⟨rfl, -, -⟩ := e1
  have t1 := hm.tops
  have hM' := hm.again t1
  obtain ⟨g2, ol2, e2, hm2, -, -⟩ := hm.inv.r.merging (F := F) hm.inv.w t1 ro wo to hM'
  have h2 := hm2.nodes
  have hr := (hm.did.does.trans hm2.did.does).reached hg
  refine ⟨hM', g2, _, _, e2, hm.nodes_again h2, h2.layerIds, h2.mesh, h2.layers, ?_, hm2.edges, hr⟩
  intro l p
  rw [h2.dynLayers, hm.nodes.dynLayers]
  cases g.hasDynLayer l p <;> cases o.hasDynLayer l p <;> rfl

/-- **C76, edges.** Without an id map and without the parent rule, the second call adds no edge and removes none either. -/
theorem C76_edges_again (hg : Reached ids ops g) (ho : Reached ids' ops' o) (F : FloatOps) (cfg : MergeConfig) (hM : g.Mergeable o cfg) {b b' : Bool}
    (hid : ∀ n, cfg.getMergedId n = n) (hp : cfg.enforceParent = false) {g'' o'' : Graph}
    (e : g.mergeGraph F o cfg = .ok (g', o', b)) (e' : g'.mergeGraph F o cfg = .ok (g'', o'', b')) (x y : NodeId) :
    g''.hasEdge x y = .ok true ↔ g'.hasEdge x y = .ok true := by
  obtain ⟨r0, w0⟩ := hg.rep
  obtain ⟨ro, wo⟩ := ho.rep
  have to := Spec.tops_after (Spec.tops_empty rfl) ho.ok
  obtain ⟨g1, ol, e1, hm, -, -⟩ := r0.merging (F := F) w0 (Spec.tops_after (Spec.tops_empty rfl) hg.ok) ro wo to hM
  rw [e] at e1
  simp only [Res.ok.injEq, Prod.mk.injEq] at e1
  obtain ⟨rfl, -, -⟩ := e1
  obtain ⟨g2, ol2, e2, hm2, -, -⟩ := hm.inv.r.merging (F := F) hm.inv.w hm.tops ro wo to (hm.again hm.tops)
  rw [e'] at e2
  simp only [Res.ok.injEq, Prod.mk.injEq] at e2
  obtain ⟨rfl, -, -⟩ := e2
  exact hm.edges_again hm2 hid hp x y

/-! ## The hypotheses can be met -/

end
end Verif

namespace Verif.MergeSample
open Sample

example : ∃ g' o' b, mine.mergeGraph F other cfg = .ok (g', o', b) ∧ g'.Mergeable other cfg ∧
    g'.nodeObs 14 = some ⟨.static 2, none, at1⟩ ∧ g'.nodeObs (a 2) = some ⟨.dyn 2 pa, some 300, at_ 10⟩ := by
  obtain ⟨g', o', _, _, e, -⟩ := C18_mergeGraph mineReached otherReached F cfg mergeable
  refine ⟨g', o', true, e, (C76_merge_again mineReached otherReached F cfg mergeable e).1, ?_⟩
  have hr : result = g' := by unfold result got; rw [e]
  rw [← hr]
  decide +kernel

/-- merging without an id map -/
def plain : MergeConfig := { enforceParent := false }
theorem mergeable_plain : mine.Mergeable other plain := { mergeable with map := fun h => nomatch h }

/-- The same graph twice: the second call leaves the edges that the first has added. -/
example : ∃ g' o' g'' o'', mine.mergeGraph F other plain = .ok (g', o', true) ∧ g'.mergeGraph F other plain = .ok (g'', o'', true) ∧
    (∀ x y, g''.hasEdge x y = .ok true ↔ g'.hasEdge x y = .ok true) ∧ mine.hasEdge 22 10 = .ok false ∧ g'.hasEdge 22 10 = .ok true := by
  obtain ⟨g', o', _, _, e, -⟩ := C18_mergeGraph mineReached otherReached F plain mergeable_plain
  obtain ⟨-, g'', o'', _, e', -⟩ := C76_merge_again mineReached otherReached F plain mergeable_plain e
  refine ⟨g', o', g'', o'', e, e', C76_edges_again mineReached otherReached F plain mergeable_plain (fun _ => rfl) rfl e e', by decide +kernel, ?_⟩
  have hr : got (mine.mergeGraph F other plain) = g' := by unfold got; rw [e]
  rw [← hr]
  decide +kernel

/-! ## The limit -/

/-- The receiver has six nodes; the other graph had the edge 20-21 and removed it, and has the edges 10-11 and 12-13. -/
def sixOps : List Op :=
  [.emplaceNode 2 10 at0, .emplaceNode 2 11 at0, .emplaceNode 2 12 at0, .emplaceNode 2 13 at0, .emplaceNode 2 20 at0, .emplaceNode 2 21 at0]
def edgeOps : List Op := sixOps ++ [.insertEdge 20 21 none, .removeEdge 20 21, .insertEdge 10 11 none, .insertEdge 12 13 none]
def six : Graph := after [2] sixOps
def withEdges : Graph := after [2] edgeOps
theorem sixReached : Reached [2] sixOps six := after_reached (by decide) (by decide +kernel)
theorem withEdgesReached : Reached [2] edgeOps withEdges := after_reached (by decide) (by decide +kernel)
/-- an id map that does not lead to fixed points: 12-13 becomes 10-11, and 10-11 becomes 20-21 -/
def chainCfg : MergeConfig := { enforceParent := false, previousMerges := some (((((∅ : OMap NodeId NodeId).insert 12 10).insert 13 11).insert 10 20).insert 11 21) }

/-- **The condition on the id map is needed.** With one that chains, the first call adds an edge that the second call removes again. -/
theorem C76_chained_ids : ∃ ids ops ids' ops' g o cfg g' o' g'' o'', Reached ids ops g ∧ Reached ids' ops' o ∧ cfg.enforceParent = false ∧
    g.mergeGraph F o cfg = .ok (g', o', true) ∧ g'.mergeGraph F o cfg = .ok (g'', o'', true) ∧
    g'.hasEdge 20 21 = .ok true ∧ g''.hasEdge 20 21 = .ok false := by
  have hM : six.Mergeable withEdges chainCfg := by
    refine ⟨?_, ?_, ?_, ?_, ?_, ?_⟩
    · intro n k k' h1 h2
      exact Update.forall_find (m := six.lookup) (P := fun n k => ∀ k' ∈ withEdges.getLayerForNode n, k = k') (by decide +kernel) n k h1 k' h2
    · intro l n _ hn
      obtain ⟨x, hx, hn⟩ := hn
      have := Update.forall_find (m := withEdges.layers) (P := fun _ x => (x.getRemovedNodes false).2 = []) (by decide +kernel) l x hx
      rw [this] at hn
      cases hn
    · exact forall_dyn (by decide +kernel)
    · intro l p d _ h2
      exact forall_dyn (g := six) (P := fun l p d => none ∉ d.nodes ∧ d.next = d.nodes.length) (by decide +kernel) l p d h2
    · intro l p d e i x t h1
      exact (forall_dyn (g := six) (P := fun _ _ _ => False) (by decide +kernel) l p d h1).elim
    · intro h; cases h
  obtain ⟨g', o', _, _, e, -⟩ := C18_mergeGraph sixReached withEdgesReached F chainCfg hM
  obtain ⟨-, g'', o'', _, e', -⟩ := C76_merge_again sixReached withEdgesReached F chainCfg hM e
  have hr : got (six.mergeGraph F withEdges chainCfg) = g' := by unfold got; rw [e]
  have hr' : got ((got (six.mergeGraph F withEdges chainCfg)).mergeGraph F withEdges chainCfg) = g'' := by rw [hr]; unfold got; rw [e']
  refine ⟨_, _, _, _, _, _, _, g', o', g'', o'', sixReached, withEdgesReached, rfl, e, e', ?_, ?_⟩
  · rw [← hr]; decide +kernel
  · rw [← hr']; decide +kernel

end Verif.MergeSample
