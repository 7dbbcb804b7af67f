import Verif.Lemmas.Merge2
import Verif.Refine.SpecFacts
import Verif.Refine.SpecStep
/-! # The effect of the iterations of `mergeGraph` on the abstract graph -/

namespace Verif

/-- What an iteration does to the record of the node `m`. -/
def ptFx (P : MergePar) (ev : MergeEv) (m : NodeId) (x : Option NodeInfo) : Option NodeInfo :=
  match ev with
  | .dynNode l p n t a =>
    if n = m then
      match x with
      | some i => if P.cfg.updateDynamic then some { i with attrs := a.setPosition i.attrs.position } else some i
      | none => some ⟨.dyn l p, some t, a.setPosition (P.F.add a.position (P.delta l p))⟩
    else x
  | .node l n a =>
    if n = m then
      if P.away l n then x
      else match x with
        | some i => if P.cfg.updates l && (P.cfg.updateArchived || i.attrs.isActive) then some { i with attrs := a } else some i
        | none => some ⟨.static l, none, a⟩
    else x
  | .rmNode _ n => if n = m then none else x
  | _ => x

/-- The iteration meets the graph in a state in which it has its intended effect. -/
def MergeEv.Fits (σ : Spec) : MergeEv → Prop
  | .dynNode l p n t _ => σ.nodes.find? n = none → n = p.makeId (σ.dynInfo l p).next ∧ σ.hasStamp (.dyn l p) t = false
  | .rmNode l n => σ.key? n = none ∨ σ.key? n = some (.static l)
  | .node l _ _ => σ.layerIds.contains l = true
  | _ => True

section
variable {P : MergePar} {σ : Spec}

theorem Spec.emplaceDyn_ok {l : LayerId} {p : Prefix} {t : Stamp} (a : NodeAttrs) (h1 : σ.nodes.find? (p.makeId (σ.dynInfo l p).next) = none)
    (h2 : σ.hasStamp (.dyn l p) t = false) :
    (σ.emplaceDyn l p t a false).1 = { σ with dyn := σ.dyn.insert (l, p) ⟨(σ.dynInfo l p).next + 1, (σ.dynInfo l p).top + 1⟩ }.addNode
      (p.makeId (σ.dynInfo l p).next) ⟨.dyn l p, some t, a⟩ := by
  simp [Spec.emplaceDyn, OMap.contains_eq_false.2 h1, h2]

theorem bridge_static {n : NodeId} {l : LayerId} (h : σ.key? n = none ∨ σ.key? n = some (.static l)) : σ.bridge n = σ := by
  unfold Spec.bridge
  rcases h with h | h <;> rw [h]

/-- everything an iteration leaves alone, apart from nodes, edges and trajectories -/
theorem plan_frame (ev : MergeEv) (hf : ev.Fits σ) :
    (σ.after (plan P σ ev)).layerIds = σ.layerIds ∧ (σ.after (plan P σ ev)).mesh = σ.mesh ∧ (σ.after (plan P σ ev)).marks = σ.marks := by
  cases ev with
  | create l p =>
    simp only [plan, Spec.after_cons, Spec.after_nil, Spec.step, Spec.ans, Spec.createDyn]
    split <;> exact ⟨rfl, rfl, rfl⟩
  | dynNode l p n t a =>
    rw [plan_dynNode]
    cases hn : σ.nodes.find? n with
    | some i =>
      dsimp only
      split
      · simp [Spec.step, Spec.ans, Spec.setNodeAttrs, hn]
      · exact ⟨rfl, rfl, rfl⟩
    | none =>
      obtain ⟨h1, h2⟩ := hf hn
      simp only [Spec.after_cons, Spec.after_nil, Spec.step, Spec.ans]
      rw [Spec.emplaceDyn_ok _ (h1 ▸ hn) h2]
      exact ⟨rfl, rfl, rfl⟩
  | rmNode l n =>
    simp only [plan, Spec.after_cons, Spec.after_nil, Spec.step, Spec.ans, Spec.removeNode]
    split
    · rw [bridge_static hf]; exact ⟨rfl, rfl, rfl⟩
    · exact ⟨rfl, rfl, rfl⟩
  | rmEdge l a b =>
    rw [plan_rmEdge]
    split
    · simp only [Spec.after_cons, Spec.after_nil, Spec.step, Spec.ans, Spec.removeEdge]
      split <;> exact ⟨rfl, rfl, rfl⟩
    · exact ⟨rfl, rfl, rfl⟩
  | node l n a =>
    rw [plan_node]
    split
    · exact ⟨rfl, rfl, rfl⟩
    · cases hn : σ.nodes.find? n with
      | some i =>
        dsimp only
        split
        · simp [Spec.step, Spec.ans, Spec.setNodeAttrs, hn]
        · exact ⟨rfl, rfl, rfl⟩
      | none =>
        simp only [Spec.after_cons, Spec.after_nil, Spec.step, Spec.ans, Spec.emplaceNode]
        split
        · exact ⟨rfl, rfl, rfl⟩
        · split <;> exact ⟨rfl, rfl, rfl⟩
  | edge k s t s' t' a =>
    rw [plan_edge]
    split
    · exact ⟨rfl, rfl, rfl⟩
    · split
      · exact ⟨rfl, rfl, rfl⟩
      · split
        · simp only [Spec.after_cons, Spec.after_nil, Spec.step, Spec.ans, Spec.insertEdge]
          split
          · exact ⟨rfl, rfl, rfl⟩
          · split
            · exact ⟨rfl, rfl, rfl⟩
            · split <;> exact ⟨rfl, rfl, rfl⟩
        · exact ⟨rfl, rfl, rfl⟩
  | inter s t a =>
    rw [plan_inter]
    split
    · exact ⟨rfl, rfl, rfl⟩
    · cases P.cfg.enforceParent
      · simp only [Bool.false_eq_true, if_false, Spec.after_cons, Spec.after_nil, Spec.step, Spec.ans, Spec.insertEdge]
        split
        · exact ⟨rfl, rfl, rfl⟩
        · split
          · exact ⟨rfl, rfl, rfl⟩
          · split <;> exact ⟨rfl, rfl, rfl⟩
      · simp only [if_true, Spec.after_cons, Spec.after_nil, Spec.step, Spec.ans, Spec.insertParentEdge]
        split
        · split <;> exact ⟨rfl, rfl, rfl⟩
        · exact ⟨rfl, rfl, rfl⟩

/-- nodes after an iteration -/
theorem plan_nodes (ev : MergeEv) (hf : ev.Fits σ) (m : NodeId) :
    (σ.after (plan P σ ev)).nodes.find? m = ptFx P ev m (σ.nodes.find? m) := by
  cases ev with
  | create l p => simp [plan, Spec.step, Spec.ans, Spec.nodes_createDyn, ptFx]
  | dynNode l p n t a =>
    rw [plan_dynNode]
    by_cases hm : n = m
    · subst hm
      cases hn : σ.nodes.find? n with
      | some i =>
        simp only [ptFx, if_true]
        split
        · simp [Spec.step, Spec.ans, Spec.setNodeAttrs, hn]
        · simp [hn]
      | none =>
        obtain ⟨h1, h2⟩ := hf hn
        simp only [Spec.after_cons, Spec.after_nil, Spec.step, Spec.ans, ptFx, if_true]
        rw [Spec.emplaceDyn_ok _ (h1 ▸ hn) h2]
        simp [Spec.addNode, ← h1]
    · simp only [ptFx, if_neg hm]
      cases hn : σ.nodes.find? n with
      | some i =>
        dsimp only
        split
        · simp [Spec.step, Spec.ans, Spec.setNodeAttrs, hn, OMap.find?_insert, hm]
        · rfl
      | none =>
        obtain ⟨h1, h2⟩ := hf hn
        simp only [Spec.after_cons, Spec.after_nil, Spec.step, Spec.ans]
        rw [Spec.emplaceDyn_ok _ (h1 ▸ hn) h2]
        simp [Spec.addNode, ← h1, OMap.find?_insert, hm]
  | rmNode l n =>
    simp only [plan, Spec.after_cons, Spec.after_nil, Spec.step, Spec.ans, Spec.removeNode, ptFx]
    split
    · rw [bridge_static hf]; simp [Spec.dropNode, OMap.find?_erase]
    · rename_i h
      split
      · rename_i e
        subst e
        exact OMap.contains_eq_false.1 (by simpa using h)
      · rfl
  | rmEdge l a b =>
    rw [plan_rmEdge]
    simp only [ptFx]
    split
    · simp [Spec.step, Spec.ans, Spec.nodes_removeEdge]
    · rfl
  | node l n a =>
    rw [plan_node]
    by_cases hm : n = m
    · subst hm
      simp only [ptFx, if_true]
      split
      · rfl
      · cases hn : σ.nodes.find? n with
        | some i =>
          dsimp only
          split
          · simp [Spec.step, Spec.ans, Spec.setNodeAttrs, hn]
          · simp [hn]
        | none =>
          have hl : σ.layerIds.contains l = true := hf
          simp [Spec.step, Spec.ans, Spec.emplaceNode, OMap.contains_eq_false.2 hn, hl, Spec.addNode, -List.contains_eq_mem]
    · simp only [ptFx, if_neg hm]
      split
      · rfl
      · cases hn : σ.nodes.find? n with
        | some i =>
          dsimp only
          split
          · simp [Spec.step, Spec.ans, Spec.setNodeAttrs, hn, OMap.find?_insert, hm]
          · rfl
        | none =>
          have hl : σ.layerIds.contains l = true := hf
          simp [Spec.step, Spec.ans, Spec.emplaceNode, OMap.contains_eq_false.2 hn, hl, Spec.addNode, OMap.find?_insert, hm,
            -List.contains_eq_mem]
  | edge k s t s' t' a =>
    rw [plan_edge]
    simp only [ptFx]
    split
    · rfl
    · split
      · rfl
      · split
        · simp [Spec.step, Spec.ans, Spec.nodes_insertEdge]
        · rfl
  | inter s t a =>
    rw [plan_inter]
    simp only [ptFx]
    split
    · rfl
    · cases P.cfg.enforceParent
      · simp [Spec.step, Spec.ans, Spec.nodes_insertEdge]
      · simp [Spec.step, Spec.ans, Spec.nodes_insertParentEdge]

/-- trajectories after an iteration -/
theorem plan_dyn (ev : MergeEv) (hf : ev.Fits σ) :
    (σ.after (plan P σ ev)).dyn = match ev with
      | .create l p => if σ.dyn.contains (l, p) then σ.dyn else σ.dyn.insert (l, p) {}
      | .dynNode l p n _ _ => if σ.nodes.find? n = none then
          σ.dyn.insert (l, p) ⟨(σ.dynInfo l p).next + 1, (σ.dynInfo l p).top + 1⟩ else σ.dyn
      | _ => σ.dyn := by
  cases ev with
  | create l p =>
    simp only [plan, Spec.after_cons, Spec.after_nil, Spec.step, Spec.ans, Spec.createDyn]
    split <;> rfl
  | dynNode l p n t a =>
    rw [plan_dynNode]
    cases hn : σ.nodes.find? n with
    | some i =>
      dsimp only
      split
      · simp [Spec.step, Spec.ans, Spec.setNodeAttrs, hn]
      · simp [hn]
    | none =>
      obtain ⟨h1, h2⟩ := hf hn
      simp only [Spec.after_cons, Spec.after_nil, Spec.step, Spec.ans]
      rw [Spec.emplaceDyn_ok _ (h1 ▸ hn) h2]
      simp [Spec.addNode, hn]
  | rmNode l n =>
    simp only [plan, Spec.after_cons, Spec.after_nil, Spec.step, Spec.ans, Spec.removeNode]
    split
    · rw [bridge_static hf]; rfl
    · rfl
  | rmEdge l a b =>
    rw [plan_rmEdge]
    split
    · simp only [Spec.after_cons, Spec.after_nil, Spec.step, Spec.ans, Spec.removeEdge]
      split <;> rfl
    · rfl
  | node l n a =>
    rw [plan_node]
    split
    · rfl
    · cases hn : σ.nodes.find? n with
      | some i =>
        dsimp only
        split
        · simp [Spec.step, Spec.ans, Spec.setNodeAttrs, hn]
        · rfl
      | none =>
        simp only [Spec.after_cons, Spec.after_nil, Spec.step, Spec.ans, Spec.emplaceNode]
        split
        · rfl
        · split <;> rfl
  | edge k s t s' t' a =>
    rw [plan_edge]
    split
    · rfl
    · split
      · rfl
      · split
        · simp only [Spec.after_cons, Spec.after_nil, Spec.step, Spec.ans, Spec.insertEdge]
          split
          · rfl
          · split
            · rfl
            · split <;> rfl
        · rfl
  | inter s t a =>
    rw [plan_inter]
    split
    · rfl
    · cases P.cfg.enforceParent
      · simp only [Bool.false_eq_true, if_false, Spec.after_cons, Spec.after_nil, Spec.step, Spec.ans, Spec.insertEdge]
        split
        · rfl
        · split
          · rfl
          · split <;> rfl
      · simp only [if_true, Spec.after_cons, Spec.after_nil, Spec.step, Spec.ans, Spec.insertParentEdge]
        split
        · split <;> rfl
        · rfl

/-- The edge an iteration may add. -/
def MergeEv.offers : MergeEv → Option (NodeId × NodeId × EdgeAttrs)
  | .edge _ _ _ s t a => some (s, t, a)
  | .inter s t a => some (s, t, a)
  | _ => none

/-- The edges an iteration takes away. -/
def MergeEv.kills (P : MergePar) (σ : Spec) (q : EdgeKey) : MergeEv → Prop
  | .rmNode _ n => q.has n = true
  | .rmEdge l a b => q = EdgeKey.of a b ∧ σ.key? a = some (.static l) ∧ σ.key? b = some (.static l)
  | .inter s t _ => P.cfg.enforceParent = true ∧ σ.hasEdge s t = false ∧ s ≠ t ∧
      ∃ ks kt, σ.key? s = some ks ∧ σ.key? t = some kt ∧ σ.isParentEdge (if kt.layer < ks.layer then t else s) q = true
  | _ => False

theorem plan_edges_add (ev : MergeEv) (hf : ev.Fits σ) {q : EdgeKey} {e : EdgeInfo}
    (h : (σ.after (plan P σ ev)).edges.find? q = some e) :
    σ.edges.find? q = some e ∨ ∃ s t a, ev.offers = some (s, t, a) ∧ q = EdgeKey.of s t ∧ e = ⟨s, t, a⟩ ∧ s ≠ t ∧ σ.edges.find? q = none ∧
      (∀ k u v, ev = .edge k u v s t a → σ.key? s = some k ∧ σ.key? t = some k) := by
  cases ev with
  | create l p =>
    simp only [plan, Spec.after_cons, Spec.after_nil, Spec.step, Spec.ans, Spec.createDyn] at h
    split at h <;> exact .inl h
  | dynNode l p n t a =>
    rw [plan_dynNode] at h
    cases hn : σ.nodes.find? n with
    | some i =>
      rw [hn] at h
      dsimp only at h
      split at h
      · simp [Spec.step, Spec.ans, Spec.setNodeAttrs, hn] at h; exact .inl h
      · exact .inl h
    | none =>
      obtain ⟨h1, h2⟩ := hf hn
      rw [hn] at h
      simp only [Spec.after_cons, Spec.after_nil, Spec.step, Spec.ans] at h
      rw [Spec.emplaceDyn_ok _ (h1 ▸ hn) h2] at h
      exact .inl h
  | rmNode l n =>
    simp only [plan, Spec.after_cons, Spec.after_nil, Spec.step, Spec.ans, Spec.removeNode] at h
    split at h
    · rw [bridge_static hf] at h
      simp only [Spec.dropNode, OMap.find?_filter] at h
      exact .inl (Option.filter_eq_some_iff.1 h).1
    · exact .inl h
  | rmEdge l a b =>
    rw [plan_rmEdge] at h
    split at h
    · simp only [Spec.after_cons, Spec.after_nil, Spec.step, Spec.ans, Spec.removeEdge] at h
      split at h
      · simp only [Spec.eraseEdge, OMap.find?_erase] at h
        split at h
        · cases h
        · exact .inl h
      · exact .inl h
    · exact .inl h
  | node l n a =>
    rw [plan_node] at h
    split at h
    · exact .inl h
    · cases hn : σ.nodes.find? n with
      | some i =>
        rw [hn] at h
        dsimp only at h
        split at h
        · simp [Spec.step, Spec.ans, Spec.setNodeAttrs, hn] at h; exact .inl h
        · exact .inl h
      | none =>
        rw [hn] at h
        simp only [Spec.after_cons, Spec.after_nil, Spec.step, Spec.ans, Spec.emplaceNode] at h
        split at h
        · exact .inl h
        · split at h <;> exact .inl h
  | edge k s t s' t' a =>
    rw [plan_edge] at h
    split at h
    · exact .inl h
    · split at h
      · exact .inl h
      · split at h
        · rename_i hst hk
          simp only [Spec.after_cons, Spec.after_nil, Spec.step, Spec.ans, Spec.insertEdge] at h
          split at h
          · exact .inl h
          · split at h
            · exact .inl h
            · split at h
              · exact .inl h
              · rename_i hh
                simp only [Spec.addEdge, OMap.find?_insert] at h
                split at h
                · rename_i e'
                  simp only [Option.some.injEq] at h
                  refine .inr ⟨s', t', a, rfl, e'.symm, h.symm, hst, ?_, ?_⟩
                  · rw [← e']; exact OMap.contains_eq_false.1 (by simpa [Spec.hasEdge] using hh)
                  · intro k' u v e2
                    injection e2 with e3
                    subst e3
                    exact hk
                · exact .inl h
        · exact .inl h
  | inter s t a =>
    rw [plan_inter] at h
    split at h
    · exact .inl h
    · rename_i hst
      cases hp : P.cfg.enforceParent
      · simp only [hp, Bool.false_eq_true, if_false, Spec.after_cons, Spec.after_nil, Spec.step, Spec.ans, Spec.insertEdge] at h
        split at h
        · exact .inl h
        · split at h
          · exact .inl h
          · split at h
            · exact .inl h
            · rename_i hh
              simp only [Spec.addEdge, OMap.find?_insert] at h
              split at h
              · rename_i e'
                simp only [Option.some.injEq] at h
                refine .inr ⟨s, t, a, rfl, e'.symm, h.symm, hst, ?_, by intros; contradiction⟩
                rw [← e']; exact OMap.contains_eq_false.1 (by simpa [Spec.hasEdge] using hh)
              · exact .inl h
      · simp only [hp, if_true, Spec.after_cons, Spec.after_nil, Spec.step, Spec.ans, Spec.insertParentEdge] at h
        split at h
        · split at h
          · exact .inl h
          · rename_i hh
            simp only [Spec.addEdge, Spec.dropParents, OMap.find?_insert] at h
            split at h
            · rename_i e'
              simp only [Option.some.injEq] at h
              refine .inr ⟨s, t, a, rfl, e'.symm, h.symm, hst, ?_, by intros; contradiction⟩
              rw [← e']; exact OMap.contains_eq_false.1 (by simpa [Spec.hasEdge] using hh)
            · rw [OMap.find?_filter] at h
              exact .inl (Option.filter_eq_some_iff.1 h).1
        · exact .inl h

theorem plan_edges_keep (ev : MergeEv) (hf : ev.Fits σ) {q : EdgeKey} {e : EdgeInfo}
    (h : σ.edges.find? q = some e) (hk : ¬ ev.kills P σ q) : (σ.after (plan P σ ev)).edges.find? q = some e := by
  cases ev with
  | create l p =>
    simp only [plan, Spec.after_cons, Spec.after_nil, Spec.step, Spec.ans, Spec.createDyn]
    split <;> exact h
  | dynNode l p n t a =>
    rw [plan_dynNode]
    cases hn : σ.nodes.find? n with
    | some i =>
      dsimp only
      split
      · simp [Spec.step, Spec.ans, Spec.setNodeAttrs, hn, h]
      · exact h
    | none =>
      obtain ⟨h1, h2⟩ := hf hn
      simp only [Spec.after_cons, Spec.after_nil, Spec.step, Spec.ans]
      rw [Spec.emplaceDyn_ok _ (h1 ▸ hn) h2]
      exact h
  | rmNode l n =>
    simp only [plan, Spec.after_cons, Spec.after_nil, Spec.step, Spec.ans, Spec.removeNode]
    split
    · rw [bridge_static hf]
      have hk' : ¬ (q.has n = true) := hk
      simp [Spec.dropNode, OMap.find?_filter, h, hk']
    · exact h
  | rmEdge l a b =>
    rw [plan_rmEdge]
    split
    · rename_i hh
      simp only [Spec.after_cons, Spec.after_nil, Spec.step, Spec.ans, Spec.removeEdge]
      split
      · simp only [Spec.eraseEdge, OMap.find?_erase]
        rw [if_neg]
        · exact h
        · intro e'; exact hk ⟨e'.symm, hh⟩
      · exact h
    · exact h
  | node l n a =>
    rw [plan_node]
    split
    · exact h
    · cases hn : σ.nodes.find? n with
      | some i =>
        dsimp only
        split
        · simp [Spec.step, Spec.ans, Spec.setNodeAttrs, hn, h]
        · exact h
      | none =>
        simp only [Spec.after_cons, Spec.after_nil, Spec.step, Spec.ans, Spec.emplaceNode]
        split
        · exact h
        · split <;> exact h
  | edge k s t s' t' a =>
    rw [plan_edge]
    split
    · exact h
    · split
      · exact h
      · split
        · simp only [Spec.after_cons, Spec.after_nil, Spec.step, Spec.ans, Spec.insertEdge]
          split
          · exact h
          · split
            · exact h
            · split
              · exact h
              · rename_i hh
                simp only [Spec.addEdge, OMap.find?_insert]
                rw [if_neg]
                · exact h
                · rintro rfl
                  exact hh (OMap.contains_eq_true.2 ⟨e, h⟩)
        · exact h
  | inter s t a =>
    rw [plan_inter]
    split
    · exact h
    · rename_i hst
      cases hp : P.cfg.enforceParent
      · simp only [Bool.false_eq_true, if_false, Spec.after_cons, Spec.after_nil, Spec.step, Spec.ans, Spec.insertEdge]
        split
        · exact h
        · split
          · exact h
          · split
            · exact h
            · rename_i hh
              simp only [Spec.addEdge, OMap.find?_insert]
              rw [if_neg]
              · exact h
              · rintro rfl
                exact hh (OMap.contains_eq_true.2 ⟨e, h⟩)
      · simp only [if_true, Spec.after_cons, Spec.after_nil, Spec.step, Spec.ans, Spec.insertParentEdge]
        split
        · rename_i ks kt hks hkt
          split
          · exact h
          · rename_i hh
            simp only [Spec.addEdge, Spec.dropParents, OMap.find?_insert]
            rw [if_neg]
            · have hk' : σ.isParentEdge (if kt.layer < ks.layer then t else s) q ≠ true := by
                intro hc
                exact hk ⟨hp, by simpa using hh, hst, ks, kt, hks, hkt, hc⟩
              rw [OMap.find?_filter, h]
              simp [hk']
            · rintro rfl
              exact hh (OMap.contains_eq_true.2 ⟨e, h⟩)
        · exact h

end
end Verif
