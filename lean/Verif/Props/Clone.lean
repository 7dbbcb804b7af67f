import Verif.Lemmas.Clone
import Verif.Props.GraphIO
/-! # C17: `clone` -/

namespace Verif

section
variable {ids : List LayerId} {ops : List Op} {g : Graph}

/-- **C17.** The clone of a graph succeeds and looks like it: same layer ids, nodes, edges with orientation and attributes, adjacency sets
and mesh (a stamp on a *static* node is lost). It is again a graph that a history of API calls produces, so every other property holds of
it. Excluded: a graph reset to no layers at all (`C17_no_layers`), and a dynamic node whose index is the very last one. -/
theorem C17_clone (hg : Reached ids ops g) (hne : g.layerIds ≠ []) (hidx : g.IndexRoom) :
    ∃ h ops', g.clone = .ok h ∧ Reached g.layerIds ops' h ∧ h.Clones g := by
  obtain ⟨hr, hw⟩ := hg.rep
  obtain ⟨h, ops', τ, hc, hh, rh, wh, h1, h2, h3, h4, h5⟩ := hr.clone hw hne (fun n k hn => hidx n k (by rw [hr.getLayerForNode]; exact hn))
  have hhas : ∀ a b, τ.hasEdge a b = ((Spec.init ids).after ops).hasEdge a b := by
    intro a b
    unfold Spec.hasEdge
    rw [Bool.eq_iff_iff, OMap.contains_eq_true, OMap.contains_eq_true, h4]
  have hck : ∀ i : NodeInfo, i.cloned.key = i.key := by intro i; unfold NodeInfo.cloned; split <;> rfl
  have hkey : ∀ n, (τ.nodes.find? n).map NodeInfo.key = (((Spec.init ids).after ops).nodes.find? n).map NodeInfo.key := by
    intro n
    rw [h3]
    cases ((Spec.init ids).after ops).nodes.find? n with
    | none => rfl
    | some i => exact congrArg some (hck i)
  refine ⟨h, ops', hc, hh, ?_, ?_, ?_, ?_, ?_, ?_, ?_⟩
  · rw [show h.layerIds = _ from rh.layerIds, h1]; exact (show g.layerIds = _ from hr.layerIds).symm
  · intro l
    have a := rh.static_layer l
    have b := hr.static_layer l
    rw [h1, ← b] at a
    exact a
  · intro n; rw [rh.nodeObs wh, hr.nodeObs hw, h3]
  · intro a b; rw [rh.edgeObs wh, hr.edgeObs hw]; exact h4 _
  · intro n
    rw [rh.adjObs wh, hr.adjObs hw, h3]
    cases ((Spec.init ids).after ops).nodes.find? n with
    | none => rfl
    | some i =>
      simp only [Option.map_some, Spec.parents, Spec.siblings, Spec.children, GraphIO.nbrs_congr hkey hhas, hck]
  · rw [show h.mesh = _ from rh.mesh, h2]; exact (show g.mesh = _ from hr.mesh).symm
  · intro l p
    rw [rh.dyn_layer, h5]
    constructor
    · rintro ⟨n, i, hi, hk⟩
      exact ⟨n, by rw [hr.getLayerForNode, Spec.key?, hi]; exact congrArg some hk⟩
    · rintro ⟨n, hn⟩
      rw [hr.getLayerForNode, Spec.key?, Option.map_eq_some_iff] at hn
      obtain ⟨i, hi, hk⟩ := hn
      exact ⟨n, i, hi, hk⟩

/-- **C17.** If no static node carries a stamp, the clone and the original cannot be told apart node by node. -/
theorem C17_clone_exact (hg : Reached ids ops g) (hne : g.layerIds ≠ []) (hidx : g.IndexRoom)
    (hst : ∀ n i, g.nodeObs n = some i → i.key.dynamic = false → i.stamp = none) :
    ∃ h, g.clone = .ok h ∧ ∀ n, h.nodeObs n = g.nodeObs n := by
  obtain ⟨h, _, hc, _, hh⟩ := C17_clone hg hne hidx
  refine ⟨h, hc, fun n => ?_⟩
  rw [hh.nodes]
  cases hn : g.nodeObs n with
  | none => rfl
  | some i =>
    refine congrArg some ?_
    obtain ⟨k, st, at'⟩ := i
    cases k with
    | dyn l p => rfl
    | static l =>
      have : st = none := hst n _ hn rfl
      subst this
      rfl

/-- A clone of a clone looks like the clone. -/
theorem C17_clone_clone (hg : Reached ids ops g) (hne : g.layerIds ≠ []) (hidx : g.IndexRoom) {h : Graph}
    (hc : g.clone = .ok h)  :
    ∃ k, h.clone = .ok k ∧ k.Clones g ∧ ∀ n, k.nodeObs n = h.nodeObs n := by
  obtain ⟨h', ops', hc', hh, hk⟩ := C17_clone hg hne hidx
  rw [hc] at hc'
  cases hc'
  have hlf : ∀ n, h.getLayerForNode n = g.getLayerForNode n := by
    intro n
    have hck : ∀ i : NodeInfo, i.cloned.key = i.key := by intro i; unfold NodeInfo.cloned; split <;> rfl
    have e := hk.nodes n
    obtain ⟨r1, w1⟩ := hg.rep
    obtain ⟨r2, w2⟩ := hh.rep
    rw [r2.nodeObs w2, r1.nodeObs w1] at e
    rw [r1.getLayerForNode, r2.getLayerForNode, Spec.key?, Spec.key?, e]
    cases ((Spec.init ids).after ops).nodes.find? n with
    | none => rfl
    | some i => exact congrArg some (hck i)
  obtain ⟨k, ops'', hck, hkr, hkk⟩ := C17_clone hh (by rw [hk.layerIds]; exact hne) (fun n k hn => hidx n k (by rw [← hlf]; exact hn))
  have hidem : ∀ i : NodeInfo, i.cloned.cloned = i.cloned := by
    rintro ⟨k, st, at'⟩; cases k <;> rfl
  have hn : ∀ n, k.nodeObs n = h.nodeObs n := by
    intro n
    rw [hkk.nodes, hk.nodes]
    cases g.nodeObs n with
    | none => rfl
    | some i => exact congrArg some (hidem i)
  exact ⟨k, hck, ⟨hkk.layerIds.trans hk.layerIds, fun l => (hkk.layers l).trans (hk.layers l), fun n => (hn n).trans (hk.nodes n),
    fun a b => (hkk.edges a b).trans (hk.edges a b), fun n => (hkk.adj n).trans (hk.adj n), hkk.mesh.trans hk.mesh,
    fun l p => (hkk.dyns l p).trans (exists_congr fun n => by rw [hlf])⟩, hn⟩

theorem Reached.indexRoom (hg : Reached ids ops g) (hlen : ∀ d ∈ g.dynList, d.nodes.length < 2 ^ 32) : g.IndexRoom :=
  fun n k hn hd => hg.rep.1.small_index hlen (by rw [← hg.rep.1.getLayerForNode]; exact hn) hd

end

/-! ## The hypotheses can be met -/

namespace Sample

theorem ioRoom : (after ids ioOps).IndexRoom := ioReached.indexRoom (fun d hd => (ioStorable.slots d hd).1)

example : ∃ h ops', (after ids ioOps).clone = .ok h ∧ Reached (after ids ioOps).layerIds ops' h ∧ h.Clones (after ids ioOps) :=
  C17_clone ioReached (by decide +kernel) ioRoom

example : ∃ h, (after ids ioOps).clone = .ok h ∧ ∀ n, h.nodeObs n = (after ids ioOps).nodeObs n :=
  C17_clone_exact ioReached (by decide +kernel) ioRoom (fun n i hn hk => ioStorable.plain n i hn hk)

/-- the value of a computation, if it returns one -/
def got (r : Res Graph) : Graph := match r with | .ok g => g | _ => { layerIds := [] }

example : ∃ k, (got (after ids ioOps).clone).clone = .ok k ∧ k.Clones (after ids ioOps) ∧ ∀ n, k.nodeObs n = (got (after ids ioOps).clone).nodeObs n := by
  obtain ⟨h, _, hc, _⟩ := C17_clone ioReached (by decide +kernel) ioRoom
  have e : got (after ids ioOps).clone = h := by rw [hc]; rfl
  exact C17_clone_clone ioReached (by decide +kernel) ioRoom (by rw [e]; exact hc)

end Sample

/-! ## What a clone is not -/

namespace CloneLimits
open Sample

/-- The stamp of a static node inserted with `insertNode` is not in the clone. -/
theorem C17_static_stamp_lost : (∃ ops g, Reached ids ops g ∧ ∃ h, g.clone = .ok h ∧ ∃ i, g.nodeObs 10 = some i ∧ i.stamp = some 5 ∧
    h.nodeObs 10 = some { i with stamp := none }) := by
  refine ⟨[.insertNode 2 10 (some 5) at0], _, after_reached (by decide) (by decide +kernel), got (after ids [.insertNode 2 10 (some 5) at0]).clone,
    by decide +kernel, ⟨.static 2, some 5, at0⟩, ?_, rfl, ?_⟩ <;> decide +kernel

/-- A graph reset to no layers cannot be cloned: the constructor throws. -/
theorem C17_no_layers : ∃ ops g, Reached ids ops g ∧ g.clone = .throw .domainError :=
  ⟨[.reset []], _, after_reached (by decide) (by decide +kernel), by decide +kernel⟩

/-- An empty dynamic layer is not in the clone. -/
theorem C17_empty_dynamic_layer_lost : ∃ ops g, Reached ids ops g ∧ g.hasDynLayer 2 pa = true ∧ ∃ h, g.clone = .ok h ∧ h.hasDynLayer 2 pa = false :=
  ⟨[.createDyn 2 pa], _, after_reached (by decide) (by decide +kernel), by decide +kernel, _, rfl, by decide +kernel⟩

/-- A trajectory goes on in the original but not in the clone: appending to it there is refused, because the clone's layer starts counting
at zero again (the node at index zero is there already). -/
theorem C17_clone_cannot_append : ∃ ops g, Reached ids ops g ∧ ∃ h, g.clone = .ok h ∧
    (∃ g', g.emplaceDyn 2 pa 300 (some at0) true = .ok (g', true)) ∧ h.emplaceDyn 2 pa 300 (some at0) true = .ok (h, false) := by
  refine ⟨[.emplaceDyn 2 pa 100 at0 true, .emplaceDyn 2 pa 200 at0 true], _, after_reached (by decide) (by decide +kernel),
    got (after ids [.emplaceDyn 2 pa 100 at0 true, .emplaceDyn 2 pa 200 at0 true]).clone, by decide +kernel, ⟨_, rfl⟩, by decide +kernel⟩

/-- If the first node of a trajectory was removed, appending to the clone is accepted, but the node ends up where the lookup cannot see it:
the clone says that it has the node and returns a null pointer for it. -/
theorem C17_clone_append_corrupts : ∃ ops g, Reached ids ops g ∧ ∃ h h', g.clone = .ok h ∧ h.emplaceDyn 2 pa 300 (some at0) true = .ok (h', true) ∧
    h'.hasNode (a 0) = true ∧ h'.findNode (a 0) = .ok none := by
  refine ⟨[.emplaceDyn 2 pa 100 at0 true, .emplaceDyn 2 pa 200 at0 true, .removeNode (a 0)], _, after_reached (by decide) (by decide +kernel),
    got (after ids [.emplaceDyn 2 pa 100 at0 true, .emplaceDyn 2 pa 200 at0 true, .removeNode (a 0)]).clone, ?_⟩
  refine ⟨(match (got (after ids [.emplaceDyn 2 pa 100 at0 true, .emplaceDyn 2 pa 200 at0 true, .removeNode (a 0)]).clone).emplaceDyn 2 pa 300 (some at0) true with
    | .ok r => r.1 | _ => { layerIds := [] }), by decide +kernel, by decide +kernel, by decide +kernel, by decide +kernel⟩

end CloneLimits
end Verif
