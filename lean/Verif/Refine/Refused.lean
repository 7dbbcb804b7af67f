import Verif.Refine.SpecFacts
/-! # A call that answers `false` leaves the graph as it was -/

namespace Verif

variable {g g' : Graph} {σ : Spec}

theorem bind_eq_ok {α β : Type} {r : Res α} {f : α → Res β} {b : β} (h : r >>= f = .ok b) : ∃ a, r = .ok a ∧ f a = .ok b := by
  cases r with
  | ok a => exact ⟨a, rfl, h⟩
  | throw e => cases h
  | ub => cases h

theorem Layer.insertEdge_false {l l' : Layer} {s t : NodeId} {i : Option EdgeAttrs} (h : l.insertEdge s t i = .ok (l', false)) :
    l' = l := by
  unfold Layer.insertEdge at h
  split at h
  · cases h; rfl
  split at h
  · cases h; rfl
  split at h
  · cases h; rfl
  split at h
  · cases h; rfl
  obtain ⟨_, _, h⟩ := bind_eq_ok h
  obtain ⟨_, _, h⟩ := bind_eq_ok h
  cases h

theorem DynLayer.insertEdge_false {l l' : DynLayer} {s t : NodeId} {i : Option EdgeAttrs} (h : l.insertEdge s t i = .ok (l', false)) :
    l' = l := by
  unfold DynLayer.insertEdge at h
  split at h
  · cases h; rfl
  split at h
  · cases h; rfl
  split at h
  · cases h; rfl
  obtain ⟨_, _, h⟩ := bind_eq_ok h
  obtain ⟨_, _, h⟩ := bind_eq_ok h
  cases h

theorem BaseLayer.insertEdge_false {b b' : BaseLayer} {s t : NodeId} {i : Option EdgeAttrs}
    (h : b.insertEdge s t i = .ok (b', false)) : b' = b := by
  cases b with
  | static l =>
    obtain ⟨⟨l', r⟩, h1, h2⟩ := bind_eq_ok h
    cases h2
    rw [Layer.insertEdge_false h1]
  | dyn l =>
    obtain ⟨⟨l', r⟩, h1, h2⟩ := bind_eq_ok h
    cases h2
    rw [DynLayer.insertEdge_false h1]

theorem BaseLayer.removeEdge_false {b b' : BaseLayer} {s t : NodeId}
    (h : b.removeEdge s t = .ok (b', false)) : b' = b := by
  cases b with
  | static l =>
    obtain ⟨⟨l', r⟩, h1, h2⟩ := bind_eq_ok h
    cases h2
    unfold Layer.removeEdge at h1
    split at h1
    · cases h1; rfl
    obtain ⟨_, _, h⟩ := bind_eq_ok h1
    obtain ⟨_, _, h⟩ := bind_eq_ok h
    obtain ⟨_, _, h⟩ := bind_eq_ok h
    cases h
  | dyn l =>
    obtain ⟨⟨l', r⟩, h1, h2⟩ := bind_eq_ok h
    cases h2
    unfold DynLayer.removeEdge at h1
    split at h1
    · cases h1; rfl
    obtain ⟨_, _, h⟩ := bind_eq_ok h1
    obtain ⟨_, _, h⟩ := bind_eq_ok h
    obtain ⟨_, _, h⟩ := bind_eq_ok h
    cases h

theorem Graph.insertEdge_false {s t : NodeId} {i : Option EdgeAttrs} (h : g.insertEdge s t i = .ok (g', false)) : g' = g := by
  unfold Graph.insertEdge at h
  obtain ⟨⟨has, ks, kt⟩, _, h⟩ := bind_eq_ok h
  simp only at h
  split at h
  · cases h; rfl
  split at h
  · cases h; rfl
  split at h
  · obtain ⟨b, hb, h⟩ := bind_eq_ok h
    obtain ⟨⟨b', r⟩, h1, h⟩ := bind_eq_ok h
    cases h
    rw [BaseLayer.insertEdge_false h1, Graph.setLayer_self (Graph.layerFromKey_iff.1 hb)]
  · obtain ⟨_, _, h⟩ := bind_eq_ok h
    cases h

theorem Graph.removeEdge_false {s t : NodeId} (h : g.removeEdge s t = .ok (g', false)) : g' = g := by
  unfold Graph.removeEdge at h
  obtain ⟨⟨has, ks, kt⟩, _, h⟩ := bind_eq_ok h
  simp only at h
  split at h
  · cases h; rfl
  split at h
  · cases h; rfl
  split at h
  · obtain ⟨b, hb, h⟩ := bind_eq_ok h
    obtain ⟨⟨b', r⟩, h1, h⟩ := bind_eq_ok h
    cases h
    rw [BaseLayer.removeEdge_false h1, Graph.setLayer_self (Graph.layerFromKey_iff.1 hb)]
  · obtain ⟨_, _, h⟩ := bind_eq_ok h
    cases h

theorem Graph.insertParentEdge_false {s t : NodeId} {i : Option EdgeAttrs} (h : g.insertParentEdge s t i = .ok (g', false)) :
    g' = g := by
  unfold Graph.insertParentEdge at h
  obtain ⟨⟨has, ks, kt⟩, _, h⟩ := bind_eq_ok h
  simp only at h
  split at h
  · cases h; rfl
  split at h
  · cases h; rfl
  split at h
  · obtain ⟨_, _, h⟩ := bind_eq_ok h
    obtain ⟨_, _, h⟩ := bind_eq_ok h
    cases h
  · obtain ⟨_, _, h⟩ := bind_eq_ok h
    obtain ⟨_, _, h⟩ := bind_eq_ok h
    cases h

theorem BaseLayer.setEc_self (b : BaseLayer) : b.setEc b.ec = b := by cases b <;> rfl

theorem Graph.findEdgeIn_none {s t : NodeId} {ks kt : LayerKey} (h : g.findEdgeIn s t ks kt = .ok (g', none)) : g' = g := by
  have key : ∀ c : EdgeContainer, (c.find s t).2 = none → (c.find s t).1 = c := by
    intro c hc
    unfold EdgeContainer.find EdgeContainer.findKey at *
    split at hc
    · rename_i h'; simp
    · cases hc
  unfold Graph.findEdgeIn at h
  split at h
  · obtain ⟨b, hb, h⟩ := bind_eq_ok h
    simp only [Res.pure_eq, Res.ok.injEq, Prod.mk.injEq] at h
    rw [← h.1, key _ h.2, BaseLayer.setEc_self, Graph.setLayer_self (Graph.layerFromKey_iff.1 hb)]
  split at h
  · simp only [Res.ok.injEq, Prod.mk.injEq] at h
    rw [← h.1, key _ h.2]
  · simp only [Res.ok.injEq, Prod.mk.injEq] at h
    rw [← h.1, key _ h.2]

theorem Graph.setEdgeAttributes_false {s t : NodeId} {i : Option EdgeAttrs} (h : g.setEdgeAttributes s t i = .ok (g', false)) :
    g' = g := by
  unfold Graph.setEdgeAttributes at h
  obtain ⟨ks, _, h⟩ := bind_eq_ok h
  obtain ⟨kt, _, h⟩ := bind_eq_ok h
  obtain ⟨⟨g1, e⟩, h1, h⟩ := bind_eq_ok h
  cases e with
  | none => cases h; exact Graph.findEdgeIn_none h1
  | some e =>
    obtain ⟨_, _, h⟩ := bind_eq_ok h
    cases h

theorem Graph.setDyn_self {l : LayerId} {p : Prefix} {d : DynLayer} (h : g.dynLayer? l p = some d) : g.setDyn l p d = g := by
  have : g.layerAt? (.dyn l p) = some (.dyn d) := by simp [Graph.layerAt?, h]
  exact Graph.setLayer_self this

theorem DynLayer.emplaceNode_false {d d' : DynLayer} {t : Stamp} {a : Option NodeAttrs} {link : Bool}
    (h : d.emplaceNode t a link = .ok (d', false)) : d' = d ∧ d.times.contains t = true := by
  unfold DynLayer.emplaceNode at h
  split at h
  · cases h; rename_i h'; exact ⟨rfl, h'⟩
  · simp only at h
    split at h
    · obtain ⟨_, _, h⟩ := bind_eq_ok h
      cases h
    · cases h

theorem Graph.dynLayer?_create {l : LayerId} {p : Prefix} (h : g.hasDynLayer l p = false) :
    (g.createDynamicLayer l p).1.dynLayer? l p = some { id := l, pre := p } := by
  simp [Graph.createDynamicLayer, h, Graph.dynLayer?_setDyn]

theorem Graph.emplaceDyn_false {l : LayerId} {p : Prefix} {t : Stamp} {a : Option NodeAttrs} {link : Bool}
    (h : g.emplaceDyn l p t a link = .ok (g', false)) : g' = g := by
  unfold Graph.emplaceDyn at h
  simp only at h
  split at h
  · cases h; rfl
  · by_cases hd : g.hasDynLayer l p = true
    · simp only [hd, if_true] at h
      obtain ⟨d, hd', h⟩ := bind_eq_ok h
      obtain ⟨⟨d', r⟩, h1, h⟩ := bind_eq_ok h
      cases r with
      | true => cases h
      | false =>
        cases h
        rw [(DynLayer.emplaceNode_false h1).1, Graph.setDyn_self]
        cases hx : g.dynLayer? l p with
        | none => rw [hx] at hd'; cases hd'
        | some y => rw [hx] at hd'; cases hd'; rfl
    · simp only [hd] at h
      obtain ⟨d, hd', h⟩ := bind_eq_ok h
      obtain ⟨⟨d', r⟩, h1, h⟩ := bind_eq_ok h
      cases r with
      | true => cases h
      | false =>
        exfalso
        have hd2 := Graph.dynLayer?_create (by simpa using hd : g.hasDynLayer l p = false)
        simp only [Bool.false_eq_true, if_false, hd2, Res.deref_some, Res.ok.injEq] at hd'
        subst hd'
        have := (DynLayer.emplaceNode_false h1).2
        simp [OMap.contains] at this

theorem Graph.emplacePrev_false {l : LayerId} {n : NodeId} {t : Stamp} {a : Option NodeAttrs}
    (h : g.emplacePrev l n t a = .ok (g', false)) : g' = g := by
  unfold Graph.emplacePrev at h
  simp only at h
  split at h
  · cases h; rfl
  · by_cases hd : g.hasDynLayer l (Prefix.fromId n) = true
    · simp only [hd, if_true] at h
      obtain ⟨d, hd', h⟩ := bind_eq_ok h
      split at h
      · cases h
        rename_i hf
        have : (d.emplaceNodeAtIndex t ((Prefix.fromId n).index n) a).1 = d := by
          unfold DynLayer.emplaceNodeAtIndex at hf ⊢
          split
          · rfl
          · rename_i hx; simp [hx] at hf
        rw [this, Graph.setDyn_self]
        cases hx : g.dynLayer? l (Prefix.fromId n) with
        | none => rw [hx] at hd'; cases hd'
        | some y => rw [hx] at hd'; cases hd'; rfl
      · cases h
    · simp only [hd] at h
      obtain ⟨d, hd', h⟩ := bind_eq_ok h
      exfalso
      have hd2 := Graph.dynLayer?_create (by simpa using hd : g.hasDynLayer l (Prefix.fromId n) = false)
      simp only [Bool.false_eq_true, if_false, hd2, Res.deref_some, Res.ok.injEq] at hd'
      subst hd'
      simp [DynLayer.emplaceNodeAtIndex, DynLayer.hasNodeByIndex] at h

theorem R.layer_fresh (h : R g σ) {l : LayerId} {x : Layer} {n : NodeId} (hx : g.layers.find? l = some x)
    (hn : g.lookup.contains n = false) : x.nodes.find? n = none := by
  have hk : σ.key? n = none := by rw [← h.lookup']; exact OMap.contains_eq_false.1 hn
  have h1 := h.node_none hk (.static l)
  have hb : g.layerAt? (.static l) = some (.static x) := by simp [Graph.layerAt?, hx]
  rw [Graph.view_node_of_layerAt? hb] at h1
  exact h1

theorem R.emplaceNode_false (h : R g σ) {l : LayerId} {n : NodeId} {a : Option NodeAttrs}
    (he : g.emplaceNode l n a = (g', false)) : g' = g := by
  unfold Graph.emplaceNode at he
  split at he
  · cases he; rfl
  · rename_i hn
    split at he
    · cases he; rfl
    · rename_i x hx
      have := h.layer_fresh hx (by simpa using hn)
      simp [Layer.emplaceNode, OMap.contains, this] at he

theorem R.insertNode_false (h : R g σ) {l : LayerId} {n : NodeId} {st : Option Stamp} {a : Option NodeAttrs}
    (he : g.insertNode (some (n, l, st, a)) = (g', false)) : g' = g := by
  unfold Graph.insertNode at he
  simp only at he
  split at he
  · cases he; rfl
  · rename_i hn
    split at he
    · cases he; rfl
    · rename_i x hx
      split at he
      · cases he
      · rename_i hf
        cases he
        have : (x.insertNode { id := n, layer := l, timestamp := st, attrs := a }).1 = x := by
          unfold Layer.insertNode at hf ⊢
          split
          · rfl
          split
          · rfl
          · rename_i h1 h2; simp [h1, h2] at hf
        rw [this, OMap.insert_of_find? hx]

theorem R.addOrUpdateNode_false (h : R g σ) {l : LayerId} {n : NodeId} {st : Option Stamp} {a : Option NodeAttrs}
    (he : g.addOrUpdateNode l n a st = .ok (g', false)) : g' = g := by
  unfold Graph.addOrUpdateNode at he
  split at he
  · cases he; rfl
  · rename_i x hx
    split at he
    · obtain ⟨_, _, h⟩ := bind_eq_ok he
      cases h
    · rename_i hn
      split at he
      · exact Graph.emplacePrev_false he
      · have := h.layer_fresh hx (OMap.contains_eq_false.2 hn)
        simp [Layer.emplaceNode, OMap.contains, this] at he

theorem Graph.removeNode_false {n : NodeId} (he : g.removeNode n = .ok (g', false)) : g' = g := by
  unfold Graph.removeNode at he
  split at he
  · cases he; rfl
  · repeat (obtain ⟨_, _, he⟩ := bind_eq_ok he)
    cases he

theorem Graph.mergeNodes_false {f t : NodeId} (he : g.mergeNodes f t = .ok (g', false)) : g' = g := by
  unfold Graph.mergeNodes at he
  split at he
  · split at he
    · cases he; rfl
    · split at he
      · cases he; rfl
      · repeat (obtain ⟨_, _, he⟩ := bind_eq_ok he)
        cases he
  · cases he; rfl

theorem Graph.ans_false {r : Res (Graph × Bool)} (h : Graph.ans r = .ok (g', .bool false)) : r = .ok (g', false) := by
  cases r with
  | ok x =>
    obtain ⟨x1, x2⟩ := x
    simp only [Graph.ans, Res.bind_ok, Res.ok.injEq, Prod.mk.injEq, Out.bool.injEq] at h
    rw [h.1, h.2]
  | throw e => cases h
  | ub => cases h

/-- Any call that answers `false` leaves the graph exactly as it was. -/
theorem R.step_false (h : R g σ) {op : Op} (he : g.step op = .ok (g', .bool false)) : g' = g := by
  cases op <;> simp only [Graph.step] at he
  case clear => cases he
  case reset => cases he
  case createDyn l p =>
    have := Graph.ans_false he
    simp only [Res.ok.injEq] at this
    unfold Graph.createDynamicLayer at this
    split at this <;> cases this; rfl
  case emplaceNode l n a =>
    have := Graph.ans_false he
    simp only [Res.ok.injEq] at this
    exact h.emplaceNode_false this
  case insertNode l n st a =>
    have := Graph.ans_false he
    simp only [Res.ok.injEq] at this
    exact h.insertNode_false this
  case emplaceDyn => exact Graph.emplaceDyn_false (Graph.ans_false he)
  case emplacePrev => exact Graph.emplacePrev_false (Graph.ans_false he)
  case addOrUpdateNode => exact h.addOrUpdateNode_false (Graph.ans_false he)
  case setNodeAttrs n a =>
    have := Graph.ans_false he
    unfold Graph.setNodeAttributes at this
    split at this
    · cases this; rfl
    · obtain ⟨_, _, he⟩ := bind_eq_ok this
      cases he
  case insertEdge => exact Graph.insertEdge_false (Graph.ans_false he)
  case insertParentEdge => exact Graph.insertParentEdge_false (Graph.ans_false he)
  case addOrUpdateEdge s t i =>
    have := Graph.ans_false he
    unfold Graph.addOrUpdateEdge at this
    obtain ⟨has, _, this⟩ := bind_eq_ok this
    split at this
    · exact Graph.setEdgeAttributes_false this
    · exact Graph.insertEdge_false this
  case setEdgeAttrs => exact Graph.setEdgeAttributes_false (Graph.ans_false he)
  case findEdge s t => obtain ⟨_, _, he⟩ := bind_eq_ok he; cases he
  case removeNode => exact Graph.removeNode_false (Graph.ans_false he)
  case removeEdge => exact Graph.removeEdge_false (Graph.ans_false he)
  case mergeNodes => exact Graph.mergeNodes_false (Graph.ans_false he)
  case setMesh => cases he
  case markStale => cases he
  case sweep => obtain ⟨_, _, he⟩ := bind_eq_ok he; cases he
  case newNodes => cases he
  case removedNodes => cases he
  case newEdges => cases he
  case removedEdges => cases he

end Verif
