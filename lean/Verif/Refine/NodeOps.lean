import Verif.Refine.NodeSpec
/-!
# Operations that add nodes or change attributes
-/

namespace Verif

theorem SWF.addNode {σ : Spec} (hw : SWF σ) {n : NodeId} (hn : σ.key? n = none) (i : NodeInfo)
    {dyn' : OMap (LayerId × Prefix) DynInfo} (hd : ∀ k, σ.dyn.contains k = true → dyn'.contains k = true)
    (hk : Spec.hasKey { σ with dyn := dyn' } i.key = true) (hv : i.key.valid = true)
    (hdy : ∀ l p, i.key = .dyn l p → p.plain = true ∧ p.isMatch n = true ∧ i.stamp.isSome = true)
    (hst : ∀ l p m j, i.key = .dyn l p → σ.nodes.find? m = some j → j.key = .dyn l p → i.stamp ≠ j.stamp) :
    SWF ({ σ with dyn := dyn' }.addNode n i) where
  edge key e h := by
    obtain ⟨h1, h2, h3, h4⟩ := hw.edge key e h
    exact ⟨h1, h2, by simp [Spec.addNode, OMap.contains_insert, h3], by simp [Spec.addNode, OMap.contains_insert, h4]⟩
  node m j h := by
    simp only [Spec.addNode, OMap.find?_insert] at h
    split at h
    · cases h; exact ⟨hk, hv⟩
    · obtain ⟨h1, h2⟩ := hw.node m j h
      refine ⟨?_, h2⟩
      revert h1
      cases j.key with
      | static l => exact id
      | dyn l p => exact hd (l, p)
  dyn m j l p h hj := by
    simp only [Spec.addNode, OMap.find?_insert] at h
    split at h
    · rename_i e; cases h; subst e; exact hdy l p hj
    · exact hw.dyn m j l p h hj
  stamps m m' j j' l p h h' hj hj' hs := by
    simp only [Spec.addNode, OMap.find?_insert] at h h'
    split at h <;> split at h'
    · rename_i e e'; exact e.symm.trans e'
    · cases h; exact absurd hs (hst l p m' j' hj h' hj')
    · cases h'; exact absurd hs.symm (hst l p m j hj' h hj)
    · exact hw.stamps m m' j j' l p h h' hj hj' hs
  marks := hw.marks

/-- store a node and mark it new -/
def Layer.put (l : Layer) (n : NodeId) (x : Node) : Layer :=
  { l with status := l.status.insert n .new, nodes := l.nodes.insert n x }

section
variable {g : Graph} {σ : Spec}

theorem R.setNodeAttributes (h : R g σ) (hw : SWF σ) (n : NodeId) (a : NodeAttrs) (gone : NodeStatus) :
    ∃ g', g.setNodeAttributes n (some a) = .ok (g', (σ.setNodeAttrs n a).2) ∧
      Adv gone g.view g'.view (σ.setNodeAttrs n a).1 := by
  simp only [Graph.setNodeAttributes, h.lookup']
  cases hn : σ.nodes.find? n with
  | none => exact ⟨g, by simp [Spec.key?, hn, Spec.setNodeAttrs], by simpa [Spec.setNodeAttrs, hn] using Adv.refl gone h⟩
  | some i =>
    have hk := Spec.key?_eq hn
    obtain ⟨g', e, v⟩ := Graph.modNode_ok (RV.node_of h hn) (h.kok hw hk) (fun x => { x with attrs := some a })
    refine ⟨g', by simp [hk, e, Spec.setNodeAttrs, hn], ?_⟩
    rw [v]
    simpa [Spec.setNodeAttrs, hn] using adv_setAttrs h hn a gone

theorem SWF.setNodeAttrs (hw : SWF σ) (n : NodeId) (a : NodeAttrs) : SWF (σ.setNodeAttrs n a).1 := by
  cases hn : σ.nodes.find? n with
  | none => simpa [Spec.setNodeAttrs, hn] using hw
  | some i =>
    have hf : ∀ m j, (σ.nodes.insert n { i with attrs := a }).find? m = some j →
        ∃ j', σ.nodes.find? m = some j' ∧ j'.key = j.key ∧ j'.stamp = j.stamp := by
      intro m j h
      rw [OMap.find?_insert] at h
      split at h
      · rename_i e; subst e; cases h; exact ⟨i, hn, rfl, rfl⟩
      · exact ⟨j, h, rfl, rfl⟩
    have hc : ∀ m, σ.nodes.contains m = true → (σ.nodes.insert n { i with attrs := a }).contains m = true := by
      intro m hm; rw [OMap.contains_insert]; simp [hm]
    simp only [Spec.setNodeAttrs, hn]
    refine ⟨?_, ?_, ?_, ?_, hw.marks⟩
    · intro key e h
      obtain ⟨h1, h2, h3, h4⟩ := hw.edge key e h
      exact ⟨h1, h2, hc _ h3, hc _ h4⟩
    · intro m j h
      obtain ⟨j', h1, h2, h3⟩ := hf m j h
      have := hw.node m j' h1
      rw [h2] at this; exact ⟨(hasKey_congr rfl rfl j.key).trans this.1, this.2⟩
    · intro m j l p h hj
      obtain ⟨j', h1, h2, h3⟩ := hf m j h
      rw [← h3]; exact hw.dyn m j' l p h1 (h2.trans hj)
    · intro m m' j j' l p h h' hj hj' hs
      obtain ⟨a1, b1, b2, b3⟩ := hf m j h
      obtain ⟨a2, c1, c2, c3⟩ := hf m' j' h'
      exact hw.stamps m m' a1 a2 l p b1 c1 (b2.trans hj) (c2.trans hj') (b3.trans (hs.trans c3.symm))

/-! ## Adding a static node -/

theorem R.static_layer (h : R g σ) (l : LayerId) : (g.layers.find? l).isSome = σ.layerIds.contains l := by
  have := h.has (.static l)
  simpa [Graph.view, Graph.layerAt?, Spec.hasKey] using this

theorem R.node_none (h : R g σ) {n : NodeId} (hn : σ.key? n = none) (k : LayerKey) : g.view.node k n = none := by
  rw [h.node]; simp only [Spec.nodeRec]
  have : σ.nodes.find? n = none := by simpa [Spec.key?] using hn
  simp [this]

theorem R.addStatic (h : R g σ) (hw : SWF σ) {l : LayerId} {x : Layer} (hx : g.layers.find? l = some x) {n : NodeId}
    (hn : σ.key? n = none) (stamp : Option Stamp) (a : NodeAttrs) (gone : NodeStatus) :
    Adv gone g.view
      { g with layers := g.layers.insert l (x.put n { id := n, layer := l, timestamp := stamp, attrs := some a }), lookup := g.lookup.insert n (.static l) : Graph }.view
      (σ.addNode n ⟨.static l, stamp, a⟩) := by
  have hb : g.layerAt? (.static l) = some (.static x) := by simp [Graph.layerAt?, hx]
  have hid : x.id = l := by
    have := h.info (.static l) (BaseLayer.info (.static x)) (by simp [Graph.view, hb])
    exact this
  generalize hg : ({ g with layers := g.layers.insert l (x.put n { id := n, layer := l, timestamp := stamp, attrs := some a }), lookup := g.lookup.insert n (.static l) } : Graph) = g'
  have hl : ∀ k, g'.layerAt? k = if .static l = k then some (.static (x.put n { id := n, layer := l, timestamp := stamp, attrs := some a })) else g.layerAt? k := by
    intro k
    subst hg
    exact Graph.layerAt?_setLayer' (g := g) (k := .static l) (b := .static _) trivial k
  have hnode : ∀ k m, g'.view.node k m = if LayerKey.static l = k ∧ n = m then
      some (bareNode n ⟨.static l, stamp, a⟩) else g.view.node k m := by
    intro k m
    simp only [Graph.view, hl]
    by_cases e : LayerKey.static l = k
    · subst e
      simp only [if_true, true_and, Option.bind_some, BaseLayer.nd, Layer.put, OMap.find?_insert, hb]
      rfl
    · simp [e]
  have hst : ∀ k m, g'.view.st k m = if LayerKey.static l = k ∧ n = m then some .new else g.view.st k m := by
    intro k m
    simp only [Graph.view, hl]
    by_cases e : LayerKey.static l = k
    · subst e; simp only [if_true, true_and, Option.bind_some, BaseLayer.nst, Layer.put, OMap.find?_insert, hb]
    · simp [e]
  have hec : g'.view.ec = g.view.ec := by
    funext c
    cases c with
    | within k =>
      simp only [Graph.view, Graph.ecAt?, hl]
      by_cases e : LayerKey.static l = k
      · subst e; simp [hb, BaseLayer.ec, Layer.put]
      · simp [e]
    | across d => subst hg; cases d <;> rfl
  have hinfo : g'.view.info = g.view.info := by
    funext k
    simp only [Graph.view, hl]
    by_cases e : LayerKey.static l = k
    · subst e; simp [hb, BaseLayer.info, Layer.put]
    · simp [e]
  refine ⟨?_, nlog_addNode gone (h.node_none hn _) hnode hst, ?_⟩
  · refine RV.addNode (dyn' := σ.dyn) h hw hn ⟨.static l, stamp, a⟩ (by subst hg; rfl) (by subst hg; rfl) ?_ hnode ?_ hec ?_ ?_
    · intro m; subst hg; simp only [Graph.view, OMap.find?_insert]
    · intro k m
      rw [hst, hnode]
      by_cases e : LayerKey.static l = k ∧ n = m
      · simp [e, NodeStatus.live]
      · simp only [e, if_false]; exact RV.live h k m
    · intro k; rw [hinfo, RV.has h]; exact (hasKey_congr rfl rfl k).symm
    · intro k m hm
      rw [hinfo] at hm
      have := RV.info h k m hm
      cases k with
      | static l => exact this
      | dyn l' p =>
        obtain ⟨a1, a2, a3, a4, a6, a5⟩ := this
        refine ⟨a1, a2, a3, a4, a6, ?_⟩
        intro t
        rw [a5, Bool.eq_iff_iff, Spec.hasStamp_iff, Spec.hasStamp_iff]
        have hnone : σ.nodes.find? n = none := by simpa [Spec.key?] using hn
        constructor
        · rintro ⟨m', j, h1, h2, h3⟩
          refine ⟨m', j, ?_, h2, h3⟩
          simp only [Spec.addNode, OMap.find?_insert]
          rw [if_neg]; exact h1
          rintro rfl; rw [hnone] at h1; cases h1
        · rintro ⟨m', j, h1, h2, h3⟩
          simp only [Spec.addNode, OMap.find?_insert] at h1
          split at h1
          · cases h1; cases h2
          · exact ⟨m', j, h1, h2, h3⟩
  · intro c key; simp [View.hasE, hec]

theorem Spec.layerIds_contains {l : LayerId} : σ.layerIds.contains l = true ↔ l ∈ σ.layerIds := by simp

theorem R.emplaceNode (h : R g σ) (hw : SWF σ) (l : LayerId) (n : NodeId) (a : NodeAttrs) (gone : NodeStatus) :
    ∃ g', g.emplaceNode l n (some a) = (g', (σ.emplaceNode l n none a).2) ∧
      Adv gone g.view g'.view (σ.emplaceNode l n none a).1 := by
  have hrefl : Adv gone g.view g.view σ := Adv.refl gone h
  simp only [Graph.emplaceNode, Spec.emplaceNode, OMap.contains, h.lookup', ← h.static_layer]
  cases hn : σ.nodes.find? n with
  | some i => exact ⟨g, by simp [Spec.key?, hn], by simpa using hrefl⟩
  | none =>
    have hk : σ.key? n = none := by simp [Spec.key?, hn]
    cases hx : g.layers.find? l with
    | none => exact ⟨g, by simp [hk], by simpa using hrefl⟩
    | some x =>
      have hnd : x.nodes.find? n = none := by
        have := h.node_none hk (.static l)
        simpa [Graph.view, Graph.layerAt?, hx, BaseLayer.nd] using this
      have hid : x.id = l := h.info (.static l) (BaseLayer.info (.static x)) (by simp [Graph.view, Graph.layerAt?, hx])
      refine ⟨_, ?_, by simpa using h.addStatic hw hx hk none a gone⟩
      simp [hk, Layer.emplaceNode, Layer.put, OMap.contains, hnd, OMap.emplace, hid]

theorem R.insertNode (h : R g σ) (hw : SWF σ) (l : LayerId) (n : NodeId) (st : Option Stamp) (a : NodeAttrs) (gone : NodeStatus) :
    ∃ g', g.insertNode (some (n, l, st, some a)) = (g', (σ.emplaceNode l n st a).2) ∧
      Adv gone g.view g'.view (σ.emplaceNode l n st a).1 := by
  have hrefl : Adv gone g.view g.view σ := Adv.refl gone h
  simp only [Graph.insertNode, Spec.emplaceNode, OMap.contains, h.lookup', ← h.static_layer]
  cases hn : σ.nodes.find? n with
  | some i => exact ⟨g, by simp [Spec.key?, hn], by simpa using hrefl⟩
  | none =>
    have hk : σ.key? n = none := by simp [Spec.key?, hn]
    cases hx : g.layers.find? l with
    | none => exact ⟨g, by simp [hk], by simpa using hrefl⟩
    | some x =>
      have hnd : x.nodes.find? n = none := by
        have := h.node_none hk (.static l)
        simpa [Graph.view, Graph.layerAt?, hx, BaseLayer.nd] using this
      have hid : x.id = l := h.info (.static l) (BaseLayer.info (.static x)) (by simp [Graph.view, Graph.layerAt?, hx])
      refine ⟨_, ?_, by simpa using h.addStatic hw hx hk st a gone⟩
      simp [hk, Layer.insertNode, Layer.put, Layer.hasNode, OMap.contains, hnd, hid]

theorem SWF.emplaceNode (hw : SWF σ) {l : LayerId} (hl : l ≠ UNKNOWN_LAYER) (n : NodeId) (st : Option Stamp) (a : NodeAttrs) :
    SWF (σ.emplaceNode l n st a).1 := by
  simp only [Spec.emplaceNode]
  split
  · exact hw
  · split
    · exact hw
    · rename_i h1 h2
      have hk : σ.key? n = none := by rw [Spec.contains_of_key?] at h1; simpa using h1
      refine hw.addNode (dyn' := σ.dyn) hk _ (fun _ h => h) ?_ ?_ ?_ ?_
      · simpa [Spec.hasKey] using h2
      · simpa [LayerKey.valid, LayerKey.layer] using hl
      · intro l' p e; cases e
      · intro l' p m j e; cases e

end
end Verif
