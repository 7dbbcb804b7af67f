import Verif.Lemmas.Backfill
import Verif.Lemmas.Canonical
import Verif.Spec.Canonical
/-! # Trajectories without empty slots -/

namespace Verif

namespace Spec
/-- The slots of a trajectory that `P` names, given the number of slots, hold a node of it. -/
def Held (P : Nat → Nat → Prop) (σ : Spec) : Prop := ∀ l p j, P (σ.dynInfo l p).top j → σ.key? (p.makeId j) = some (.dyn l p)

variable {P : Nat → Nat → Prop} {σ σ' : Spec}

theorem held_same (h : σ.Held P) (e : σ'.dyn = σ.dyn) (hk : ∀ n l p, σ.key? n = some (.dyn l p) → σ'.key? n = some (.dyn l p)) : σ'.Held P := by
  intro l p j hj
  refine hk _ _ _ (h l p j ?_)
  unfold dynInfo at hj ⊢
  rwa [← e]

theorem held_insert (h : σ.Held P) {l : LayerId} {p : Prefix} {d : DynInfo} {j0 : Nat} (e : σ'.dyn = σ.dyn.insert (l, p) d)
    (hp : ∀ j, P d.top j → P (σ.dynInfo l p).top j ∨ j = j0) (hj0 : P d.top j0 → σ'.key? (p.makeId j0) = some (.dyn l p))
    (hk : ∀ n l p, σ.key? n = some (.dyn l p) → σ'.key? n = some (.dyn l p)) : σ'.Held P := by
  intro l' p' j hj
  unfold dynInfo at hj
  rw [e, OMap.find?_insert] at hj
  by_cases c : (l, p) = (l', p')
  · cases c
    simp only [if_true, Option.getD_some] at hj
    rcases hp j hj with h1 | rfl
    · exact hk _ _ _ (h _ _ _ h1)
    · exact hj0 hj
  · simp only [c, if_false] at hj
    exact hk _ _ _ (h _ _ _ hj)

theorem key?_of_nodes (e : σ'.nodes = σ.nodes) (n : NodeId) : σ'.key? n = σ.key? n := by unfold key?; rw [e]

theorem key?_fresh {n m : NodeId} {k : LayerKey} (hc : σ.nodes.contains n ≠ true) (hm : σ.key? m = some k) : n ≠ m := by
  rintro rfl
  apply hc
  unfold key? at hm
  obtain ⟨i, hi, _⟩ := Option.map_eq_some_iff.1 hm
  exact OMap.contains_eq_true.2 ⟨i, hi⟩

theorem key?_insert' {n m : NodeId} {i : NodeInfo} (e : σ'.nodes = σ.nodes.insert n i) : σ'.key? m = if n = m then some i.key else σ.key? m := by
  unfold key?
  rw [e, OMap.find?_insert]
  split <;> rfl

theorem key?_emplaceNode (σ : Spec) (l : LayerId) (n : NodeId) (st : Option Stamp) (a : NodeAttrs) (m : NodeId) (k : LayerKey) (h : σ.key? m = some k) :
    (σ.emplaceNode l n st a).1.key? m = some k := by
  unfold emplaceNode
  split
  · exact h
  · rename_i hc
    split
    · exact h
    · rw [key?_insert' (σ := σ) (n := n) (i := ⟨.static l, st, a⟩) rfl, if_neg (key?_fresh hc h)]
      exact h

theorem key?_setNodeAttrs (σ : Spec) (n : NodeId) (a : NodeAttrs) (m : NodeId) : (σ.setNodeAttrs n a).1.key? m = σ.key? m := by
  unfold setNodeAttrs
  split
  · rfl
  · rename_i i hi
    rw [key?_insert' (σ := σ) (n := n) (i := { i with attrs := a }) rfl]
    split
    · rename_i e
      subst e
      unfold key?
      rw [hi]
      rfl
    · rfl

/-- Merging takes no node away from a trajectory: two nodes of one trajectory may not be merged. -/
theorem key?_mergeNodes (f t : NodeId) (hok : (Op.mergeNodes f t).ok σ = true) (n : NodeId) (l : LayerId) (p : Prefix)
    (h : σ.key? n = some (.dyn l p)) : (σ.mergeNodes f t).1.key? n = some (.dyn l p) := by
  unfold mergeNodes
  split
  · exact h
  · rename_i hft
    split
    · rename_i kf kt h1 h2
      split
      · exact h
      · rename_i hk
        have hk : kf = kt := Decidable.not_not.1 hk
        subst hk
        have hne : f ≠ n := by
          rintro rfl
          rw [h1] at h
          cases h
          simp only [Op.ok, h1, h2, Bool.and_eq_true, Bool.or_eq_true, decide_eq_true_eq] at hok
          rcases hok.2 with hh | hh
          · exact hft hh
          · exact hh rfl
        unfold key? at h ⊢
        dsimp only
        rw [OMap.find?_erase, if_neg hne]
        exact h
    · exact h

variable (h0 : ∀ j, ¬ P 0 j) (hs : ∀ t j, P (t + 1) j → P t j ∨ j = t)
include h0 hs

omit h0 hs in
theorem held_emplacePrev (h : σ.Held P) (hm : ∀ t k j, P (max t (k + 1)) j → P t j ∨ j = k) (l : LayerId) (n : NodeId) (t : Stamp) (a : NodeAttrs) :
    (σ.emplacePrev l n t a).1.Held P := by
  unfold emplacePrev
  split
  · exact h
  · rename_i hc
    refine held_insert h (l := l) (p := Prefix.fromId n) (j0 := (Prefix.fromId n).index n)
      (d := ⟨(σ.dynInfo l (Prefix.fromId n)).next, max (σ.dynInfo l (Prefix.fromId n)).top ((Prefix.fromId n).index n + 1)⟩) rfl (hm _ _) ?_ ?_
    · intro _
      rw [Prefix.makeId_index ((Prefix.isMatch_iff _ _).2 rfl), key?_insert' (σ := σ) (n := n) (i := ⟨.dyn l (Prefix.fromId n), some t, a⟩) rfl, if_pos rfl]
    · intro m l' p' hk
      rw [key?_insert' (σ := σ) (n := n) (i := ⟨.dyn l (Prefix.fromId n), some t, a⟩) rfl, if_neg (key?_fresh hc hk)]
      exact hk

theorem held_step (h : σ.Held P) (op : Op) (hok : op.ok σ = true) (hr : op.adds = true)
    (hm : op.appends = true ∨ ∀ t k j, P (max t (k + 1)) j → P t j ∨ j = k) : (σ.step op).1.Held P := by
  cases op with
  | clear => intro l p j hj; exact absurd hj (h0 j)
  | reset ids => intro l p j hj; exact absurd hj (h0 j)
  | createDyn l p =>
    show (σ.createDyn l p).1.Held P
    unfold createDyn
    split
    · exact h
    · exact held_insert h (l := l) (p := p) (d := {}) (j0 := 0) rfl (fun j hj => absurd hj (h0 j)) (fun hj => absurd hj (h0 0)) (fun _ _ _ hk => hk)
  | emplaceNode l n a => exact held_same h (dyn_emplaceNode ..) (fun m _ _ hk => key?_emplaceNode _ _ _ _ _ m _ hk)
  | insertNode l n st a => exact held_same h (dyn_emplaceNode ..) (fun m _ _ hk => key?_emplaceNode _ _ _ _ _ m _ hk)
  | emplaceDyn l p t a link =>
    show (σ.emplaceDyn l p t a link).1.Held P
    have hn : (σ.dynInfo l p).next = (σ.dynInfo l p).top := by
      simp only [Op.ok, Bool.and_eq_true, decide_eq_true_eq] at hok
      exact hok.2
    unfold emplaceDyn
    dsimp only
    split
    · exact h
    · rename_i hc
      split
      · exact h
      · have key : ∀ σ' : Spec, σ'.dyn = σ.dyn.insert (l, p) ⟨(σ.dynInfo l p).next + 1, (σ.dynInfo l p).top + 1⟩ →
            σ'.nodes = σ.nodes.insert (p.makeId (σ.dynInfo l p).next) ⟨.dyn l p, some t, a⟩ → σ'.Held P := by
          intro σ' e1 e2
          refine held_insert h e1 (j0 := (σ.dynInfo l p).top) (hs _) ?_ ?_
          · intro _
            rw [key?_insert' e2, ← hn, if_pos rfl]
          · intro m l' p' hk
            rw [key?_insert' e2, if_neg (key?_fresh hc hk)]
            exact hk
        split <;> exact key _ rfl rfl
  | emplacePrev l n t a => exact held_emplacePrev h (hm.resolve_left (by simp [Op.appends])) _ _ _ _
  | addOrUpdateNode l n a st =>
    show (σ.addOrUpdateNode l n a st).1.Held P
    unfold addOrUpdateNode
    split
    · exact h
    · split
      · exact held_same h (dyn_setNodeAttrs ..) (fun m _ _ hk => by rw [key?_setNodeAttrs]; exact hk)
      · cases st with
        | none => exact held_same h (dyn_emplaceNode ..) (fun m _ _ hk => key?_emplaceNode _ _ _ _ _ m _ hk)
        | some t => exact held_emplacePrev h (hm.resolve_left (by simp [Op.appends])) _ _ _ _
  | setNodeAttrs n a => exact held_same h (dyn_setNodeAttrs ..) (fun m _ _ hk => (key?_setNodeAttrs σ n a m).trans hk)
  | insertEdge s t a => exact held_same h (dyn_insertEdge ..) (fun m _ _ hk => (key?_of_nodes (nodes_insertEdge σ s t a) m).trans hk)
  | insertParentEdge s t a => exact held_same h (dyn_insertParentEdge ..) (fun m _ _ hk => (key?_of_nodes (nodes_insertParentEdge σ s t a) m).trans hk)
  | addOrUpdateEdge s t a => exact held_same h (dyn_addOrUpdateEdge ..) (fun m _ _ hk => (key?_of_nodes (nodes_addOrUpdateEdge σ s t a) m).trans hk)
  | setEdgeAttrs s t a => exact held_same h (dyn_setEdgeAttrs ..) (fun m _ _ hk => (key?_of_nodes (nodes_setEdgeAttrs σ s t a) m).trans hk)
  | findEdge s t => exact held_same h (dyn_touch ..) (fun m _ _ hk => (key?_of_nodes (nodes_touch σ _) m).trans hk)
  | removeNode n => cases hr
  | removeEdge s t => exact held_same h (dyn_removeEdge ..) (fun m _ _ hk => (key?_of_nodes (nodes_removeEdge σ s t) m).trans hk)
  | mergeNodes f t => exact held_same h (dyn_mergeNodes ..) (fun m _ _ hk => key?_mergeNodes f t hok m _ _ hk)
  | setMesh m => exact held_same h rfl (fun _ _ _ hk => hk)
  | markStale => exact held_same h rfl (fun _ _ _ hk => hk)
  | sweep => exact held_same h rfl (fun _ _ _ hk => hk)
  | newNodes c => exact h
  | removedNodes c => exact h
  | newEdges c => exact h
  | removedEdges c => exact h

theorem held_after (h : σ.Held P) (ops : List Op) (hok : Op.okAll σ ops = true) (hr : ∀ op ∈ ops, op.adds = true)
    (hm : (∀ op ∈ ops, op.appends = true) ∨ ∀ t k j, P (max t (k + 1)) j → P t j ∨ j = k) : (σ.after ops).Held P := by
  induction ops generalizing σ with
  | nil => exact h
  | cons op ops ih =>
    simp only [Op.okAll, Bool.and_eq_true] at hok
    refine ih (held_step h0 hs h op hok.1 (hr _ (.head _)) (hm.imp_left (fun x => x _ (.head _)))) hok.2 (fun o ho => hr o (.tail _ ho))
      (hm.imp_left (fun x o ho => x o (.tail _ ho)))
end Spec

/-- Every slot of every trajectory holds a node of it. -/
def Spec.Full (σ : Spec) : Prop := σ.Held (fun t j => j < t)
/-- The last slot does. -/
def Spec.Tight (σ : Spec) : Prop := σ.Held (fun t j => j + 1 = t)

theorem Spec.full_after (ids : List LayerId) (ops : List Op) (hok : Op.okAll (Spec.init ids) ops = true) (hm : ∀ op ∈ ops, op.appends = true) :
    ((Spec.init ids).after ops).Full := by
  refine Spec.held_after (by omega) (by omega) (fun l p j hj => ?_) ops hok (fun op ho => ?_) (.inl hm)
  · exact absurd hj (Nat.not_lt_zero _)
  · have := hm op ho
    cases op <;> first | rfl | cases this

theorem Spec.tight_after (ids : List LayerId) (ops : List Op) (hok : Op.okAll (Spec.init ids) ops = true) (hr : ∀ op ∈ ops, op.adds = true) :
    ((Spec.init ids).after ops).Tight := by
  refine Spec.held_after (by omega) (by omega) (fun l p j hj => ?_) ops hok hr (.inr (by omega))
  exact absurd hj (Nat.succ_ne_zero _)

section
variable {g h : Graph} {σ τ : Spec}

/-- All slots hold nodes: there is no gap. -/
theorem R.no_gap (hg : R g σ) (hl : ∀ d ∈ g.dynList, d.nodes.length < 2 ^ 32) (hf : σ.Full) : ¬ g.Gap := by
  rintro ⟨d, hd, hn⟩
  have hd0 := hd
  simp only [Graph.dynList, List.mem_flatMap, List.mem_map] at hd
  obtain ⟨⟨l, m⟩, h1, ⟨p, d'⟩, h2, rfl⟩ := hd
  have hd : g.dynLayer? l p = some d' := by
    simp only [Graph.dynLayer?, OMap.mem_toList.1 h1, Option.bind_some]
    exact OMap.mem_toList.1 h2
  obtain ⟨j, hj, e⟩ := List.mem_iff_getElem.1 hn
  have hj' : j < 2 ^ 32 := Nat.lt_trans hj (hl _ hd0)
  have hb : g.layerAt? (.dyn l p) = some (.dyn d') := by simp [Graph.layerAt?, hd]
  have i4 := (RV.info hg (.dyn l p) (BaseLayer.info (.dyn d')) (by simp [Graph.view, hb])).2.2.2.1
  simp only [BaseLayer.info] at i4
  have hs := hg.dynSlot hd hj'
  rw [List.getElem?_eq_getElem hj, e] at hs
  have hk := hf l p j (by rw [← i4]; exact hj)
  unfold Spec.key? at hk
  obtain ⟨i, hi, hk⟩ := Option.map_eq_some_iff.1 hk
  unfold Spec.nodeRec at hs
  rw [hi] at hs
  simp [hk] at hs

/-- No gap: all slots hold nodes. -/
theorem R.full (hg : R g σ) (hl : ∀ d ∈ g.dynList, d.nodes.length < 2 ^ 32) (hn : ¬ g.Gap) : σ.Full := by
  intro l p j hj
  cases hd : g.dynLayer? l p with
  | none =>
    have : (g.view.info (.dyn l p)).isSome = false := by simp [Graph.view, Graph.layerAt?, hd]
    rw [RV.has hg] at this
    have : σ.dyn.contains (l, p) = false := this
    rw [OMap.contains_eq_false] at this
    unfold Spec.dynInfo at hj
    rw [this] at hj
    exact absurd hj (Nat.not_lt_zero _)
  | some d =>
    have hb : g.layerAt? (.dyn l p) = some (.dyn d) := by simp [Graph.layerAt?, hd]
    have i4 := (RV.info hg (.dyn l p) (BaseLayer.info (.dyn d)) (by simp [Graph.view, hb])).2.2.2.1
    simp only [BaseLayer.info] at i4
    have hmem : d ∈ g.dynList := by
      simp only [Graph.dynLayer?, Option.bind_eq_some_iff] at hd
      obtain ⟨m, hm, hd⟩ := hd
      simp only [Graph.dynList, List.mem_flatMap, List.mem_map]
      exact ⟨(l, m), OMap.mem_toList.2 hm, (p, d), OMap.mem_toList.2 hd, rfl⟩
    have hj1 : j < d.nodes.length := by rw [i4]; exact hj
    have hs := hg.dynSlot hd (Nat.lt_trans hj1 (hl d hmem))
    rw [List.getElem?_eq_getElem hj1] at hs
    cases hx : d.nodes[j] with
    | none => exact absurd ⟨d, hmem, hx ▸ List.getElem_mem hj1⟩ hn
    | some x =>
      rw [hx] at hs
      unfold Spec.nodeRec at hs
      cases hi : σ.nodes.find? (p.makeId j) with
      | none => rw [hi] at hs; simp at hs
      | some i =>
        rw [hi] at hs
        unfold Spec.key?
        rw [hi]
        by_cases hk : i.key = .dyn l p
        · simp [hk]
        · simp [hk] at hs

/-- A graph that nothing was removed from, with the nodes of a graph without gaps, has none. -/
theorem Spec.Tight.full (ht : τ.Tight) (hf : σ.Full) (hk : ∀ n, σ.key? n = τ.key? n) (hb : ∀ n l p, σ.key? n = some (.dyn l p) → p.index n < (σ.dynInfo l p).top)
    (hl : ∀ l p, (τ.dynInfo l p).top ≤ 2 ^ 32) : τ.Full := by
  intro l p j hj
  have h1 : τ.key? (p.makeId ((τ.dynInfo l p).top - 1)) = some (.dyn l p) := ht l p _ (by omega)
  rw [← hk] at h1
  have h2 := hb _ _ _ h1
  rw [Prefix.index_makeId p p (by have := hl l p; omega)] at h2
  rw [← hk]
  exact hf l p j (by omega)

/-- The number of slots of a trajectory. -/
theorem R.slots_top (hg : R g σ) {d : DynLayer} (hd : d ∈ g.dynList) : ∃ l p, g.dynLayer? l p = some d ∧ d.nodes.length = (σ.dynInfo l p).top := by
  simp only [Graph.dynList, List.mem_flatMap, List.mem_map] at hd
  obtain ⟨⟨l, m⟩, h1, ⟨p, d'⟩, h2, rfl⟩ := hd
  have hd : g.dynLayer? l p = some d' := by
    simp only [Graph.dynLayer?, OMap.mem_toList.1 h1, Option.bind_some]
    exact OMap.mem_toList.1 h2
  have hb : g.layerAt? (.dyn l p) = some (.dyn d') := by simp [Graph.layerAt?, hd]
  have i4 := (RV.info hg (.dyn l p) (BaseLayer.info (.dyn d')) (by simp [Graph.view, hb])).2.2.2.1
  exact ⟨l, p, hd, i4⟩

theorem R.top_slots (hg : R g σ) (l : LayerId) (p : Prefix) : (σ.dynInfo l p).top = 0 ∨ ∃ d ∈ g.dynList, d.nodes.length = (σ.dynInfo l p).top := by
  cases hd : g.dynLayer? l p with
  | none =>
    have : (g.view.info (.dyn l p)).isSome = false := by simp [Graph.view, Graph.layerAt?, hd]
    rw [RV.has hg] at this
    have : σ.dyn.contains (l, p) = false := this
    rw [OMap.contains_eq_false] at this
    unfold Spec.dynInfo
    rw [this]
    exact .inl rfl
  | some d =>
    have hb : g.layerAt? (.dyn l p) = some (.dyn d) := by simp [Graph.layerAt?, hd]
    have i4 := (RV.info hg (.dyn l p) (BaseLayer.info (.dyn d)) (by simp [Graph.view, hb])).2.2.2.1
    have hmem : d ∈ g.dynList := by
      simp only [Graph.dynLayer?, Option.bind_eq_some_iff] at hd
      obtain ⟨m, hm, hd⟩ := hd
      simp only [Graph.dynList, List.mem_flatMap, List.mem_map]
      exact ⟨(l, m), OMap.mem_toList.2 hm, (p, d), OMap.mem_toList.2 hd, rfl⟩
    exact .inr ⟨d, hmem, i4⟩

/-- A graph that nothing was removed from, with the nodes of a graph without gaps and with less than 2^32 slots, is such a graph. -/
theorem R.slots_again (hg : R g σ) (hh : R h τ) (ht : τ.Tight) (hT : τ.Tops) (hl : ∀ d ∈ g.dynList, d.nodes.length < 2 ^ 32) (hn : ¬ g.Gap)
    (hk : ∀ n, σ.key? n = τ.key? n) : (∀ d ∈ h.dynList, d.nodes.length < 2 ^ 32) ∧ ¬ h.Gap := by
  have hf := hg.full hl hn
  have hb : ∀ n l p, σ.key? n = some (.dyn l p) → p.index n < (σ.dynInfo l p).top := by
    intro n l p h1
    unfold Spec.key? at h1
    obtain ⟨i, hi, hk⟩ := Option.map_eq_some_iff.1 h1
    obtain ⟨_, _, _, h4⟩ := hg.slot_of hi hk
    exact h4
  have hlen : ∀ d ∈ h.dynList, d.nodes.length < 2 ^ 32 := by
    intro d hd
    obtain ⟨l, p, _, e⟩ := hh.slots_top hd
    rw [e]
    rcases Nat.eq_zero_or_pos (τ.dynInfo l p).top with h0 | h0
    · rw [h0]; decide
    · have h1 : τ.key? (p.makeId ((τ.dynInfo l p).top - 1)) = some (.dyn l p) := ht l p _ (by omega)
      rw [← hk] at h1
      have h2 := hb _ _ _ h1
      rw [Prefix.index_makeId p p (by have := hT l p; omega)] at h2
      rcases hg.top_slots l p with h3 | ⟨d', hd', h3⟩
      · omega
      · have := hl d' hd'
        omega
  exact ⟨hlen, hh.no_gap hlen (ht.full hf hk hb hT)⟩
end

section
variable {ids ids' : List LayerId} {ops ops' : List Op} {g h : Graph} {W : Registry NodeClass}

theorem SWF.edges_same {σ τ : Spec} (hσ : SWF σ) (hτ : SWF τ) (he : ∀ a b, σ.edge? a b = τ.edge? a b) (k : EdgeKey) : σ.edges.find? k = τ.edges.find? k := by
  have key : ∀ {σ τ : Spec}, SWF σ → (∀ a b, σ.edge? a b = τ.edge? a b) → ∀ e, σ.edges.find? k = some e → τ.edges.find? k = some e := by
    intro σ τ hσ he e h1
    have hk := (hσ.edge k e h1).1
    have := he e.src e.tgt
    unfold Spec.edge? at this
    rw [← hk, h1] at this
    exact this.symm
  cases h1 : σ.edges.find? k with
  | some e => exact (key hσ he e h1).symm
  | none =>
    cases h2 : τ.edges.find? k with
    | none => rfl
    | some e => rw [key hτ (fun a b => (he a b).symm) e h2] at h1; cases h1

/-- What the binary format writes does not distinguish an attribute object from what it keeps of it. -/
theorem Wr.nodeAttrs_kept (W : Registry NodeClass) (a : NodeAttrs) : Wr.nodeAttrs W a.kept = Wr.nodeAttrs W a := by cases a <;> rfl

/-- Nodes that differ in what is not kept only are written alike. -/
theorem sameNodes_kept {σ τ : Spec} (hn : ∀ n, τ.nodes.find? n = (σ.nodes.find? n).map NodeInfo.kept) : SameNodes σ τ (fun x => Wr.node W (some x)) where
  key n := by
    unfold Spec.key?
    rw [hn]
    cases σ.nodes.find? n <;> rfl
  rec_ n i j hi hj := by
    rw [hn, hi] at hj
    cases hj
    show Wr.seq _ (Wr.seq _ (Wr.seq _ (Wr.seq _ _))) = Wr.seq _ (Wr.seq _ (Wr.seq _ (Wr.seq _ (Wr.nodeAttrs W i.attrs.kept))))
    rw [Wr.nodeAttrs_kept]
    rfl

theorem sameNodes_of {σ τ : Spec} {α : Type} {w : Node → α} (hn : ∀ n, σ.nodes.find? n = τ.nodes.find? n)
    (hw : ∀ n i, w (σ.mkNode n i) = w (τ.mkNode n i)) : SameNodes σ τ w where
  key n := by unfold Spec.key?; rw [hn]
  rec_ n i j hi hj := by
    rw [hn, hj] at hi
    cases hi
    exact hw n _
end
end Verif
