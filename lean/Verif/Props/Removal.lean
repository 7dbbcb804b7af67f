import Verif.Refine.SpecFacts
import Verif.Props.Sample
/-! # C06, C07: removing and merging nodes -/

namespace Verif

variable {ids : List LayerId} {ops : List Op} {g : Graph}

theorem R.crossFree {σ : Spec} (hr : R g σ) (hw : SWF σ) {n : NodeId} (h : g.CrossFree n) : σ.crossFree n = true := by
  unfold Spec.crossFree
  rw [List.all_eq_true]
  rintro ⟨m, j⟩ hm
  have hj := OMap.mem_toList.1 hm
  have hk : σ.key? m = some j.key := by simp [Spec.key?, hj]
  simp only [Bool.not_eq_true', Bool.and_eq_false_imp, Bool.and_eq_true, decide_eq_true_eq, decide_eq_false_iff_not,
    Classical.not_not]
  rintro ⟨he, hl⟩
  rw [Option.map_eq_some_iff] at hl
  obtain ⟨kn, hkn, hl⟩ := hl
  have := h m kn j.key (by rw [hr.hasEdge hw, he]) (by rw [hr.getLayerForNode, hkn]) (by rw [hr.getLayerForNode, hk]) hl.symm
  rw [hkn, this]

theorem R.sameFrame {g' : Graph} {σ σ' : Spec} (h : R g σ) (h' : R g' σ') (h1 : σ'.layerIds = σ.layerIds) (h2 : σ'.mesh = σ.mesh)
    (h3 : ∀ k, σ'.dyn.contains k = σ.dyn.contains k) : g.SameFrame g' := by
  refine ⟨by rw [show g'.layerIds = _ from h'.layerIds, h1]; exact h.layerIds.symm,
    by rw [show g'.mesh = _ from h'.mesh, h2]; exact h.mesh.symm, ?_⟩
  intro k
  cases k with
  | static l => exact (h'.static_layer l).trans (by rw [h1]; exact (h.static_layer l).symm)
  | dyn l p => simp only [Graph.hasLayerKey, h'.dyn_layer, h.dyn_layer, h3]

/-- Removing `n` links its neighbours in time `a` and `b`: `n` is a dynamic node, `a` and `b` are the nodes with
the ids just before and after it, all three in one layer, `n` linked to both, and they not yet linked. -/
def Bridged (g : Graph) (n a b : NodeId) : Prop :=
  ((a = n - 1 ∧ b = n + 1) ∨ (a = n + 1 ∧ b = n - 1)) ∧
  ∃ l p, g.getLayerForNode n = some (.dyn l p) ∧ g.getLayerForNode (n - 1) = some (.dyn l p) ∧
    g.getLayerForNode (n + 1) = some (.dyn l p) ∧ g.hasEdge n (n - 1) = .ok true ∧ g.hasEdge n (n + 1) = .ok true ∧
    g.hasEdge (n - 1) (n + 1) = .ok false

open Classical in
/-- **C06.** `removeNode(n)` answers whether `n` was known; afterwards `n` and all its edges are gone, all other nodes
and edges are as before (a dynamic node linked to both neighbours in time leaves them linked by a default edge). -/
theorem C06_removeNode (h : Reached ids ops g) (n : NodeId) (hc : g.CrossFree n) :
    ∃ g', g.removeNode n = .ok (g', g.hasNode n) ∧ Reached ids (ops ++ [.removeNode n]) g' ∧ g.SameFrame g' ∧
      (∀ m, g'.nodeObs m = if m = n then none else g.nodeObs m) ∧
      (∀ a b, g'.edgeObs a b = if a = n ∨ b = n then none
        else if Bridged g n a b then some ⟨n - 1, n + 1, {}⟩ else g.edgeObs a b) := by
  obtain ⟨hr, hw⟩ := h.rep
  generalize hσ : (Spec.init ids).after ops = σ at hr hw
  have hok : (Op.removeNode n).ok σ = true := hr.crossFree hw hc
  obtain ⟨g', heq, hreach, hr', hw', _⟩ := h.mut (.removeNode n) hσ hok (r := g.removeNode n) (s := σ.removeNode n) rfl rfl
  have hB : ∀ a b, Bridged g n a b ↔ ((a = n - 1 ∧ b = n + 1) ∨ (a = n + 1 ∧ b = n - 1)) ∧ σ.bridges n := by
    intro a b
    unfold Bridged Spec.bridges
    simp only [hr.getLayerForNode, hr.hasEdge hw, Res.ok.injEq]
  have hbn : (σ.bridge n).nodes = σ.nodes := by
    by_cases hb : σ.bridges n
    · rw [Spec.bridge_pos hb]; rfl
    · rw [Spec.bridge_neg hb]
  refine ⟨g', ?_, hreach, ?_, ?_, ?_⟩
  · rw [heq]
    congr 2
    rw [hr.hasNode]
    unfold Spec.removeNode
    split <;> simp_all
  · refine hr.sameFrame hr' ?_ ?_ ?_ <;>
    · unfold Spec.removeNode
      split
      · by_cases hb : σ.bridges n
        · rw [Spec.bridge_pos hb]; simp [Spec.dropNode, Spec.addEdge]
        · rw [Spec.bridge_neg hb]; simp [Spec.dropNode]
      · simp
  · intro m
    rw [hr'.nodeObs hw', hr.nodeObs hw]
    unfold Spec.removeNode
    split
    · simp only [Spec.dropNode, hbn, OMap.find?_erase, eq_comm]
    · rename_i hn
      by_cases e : m = n
      · subst e; simpa using OMap.contains_eq_false.1 (by simpa using hn)
      · simp [e]
  · intro a b
    rw [hr'.edgeObs hw', hr.edgeObs hw]
    simp only [hB]
    by_cases hn : σ.nodes.contains n = true
    · have e1 : (σ.removeNode n).1 = (σ.bridge n).dropNode n := by simp [Spec.removeNode, hn]
      rw [e1, Spec.edge?_dropNode]
      by_cases h1 : a = n ∨ b = n
      · simp [h1]
      · simp only [h1, if_false]
        by_cases hb : σ.bridges n
        · rw [Spec.bridge_pos hb, Spec.edge?_addEdge]; simp only [hb, and_true]
        · rw [Spec.bridge_neg hb]; simp only [hb, and_false, if_false]
    · have e1 : (σ.removeNode n).1 = σ := by simp [Spec.removeNode, hn]
      have hk : σ.key? n = none := by simp [Spec.key?, OMap.contains_eq_false.1 (by simpa using hn)]
      have hb : ¬ σ.bridges n := by rintro ⟨l, p, h1, _⟩; rw [hk] at h1; cases h1
      rw [e1]
      simp only [hb, and_false, if_false]
      by_cases h1 : a = n ∨ b = n
      · simp only [h1, if_true]
        cases he : σ.edge? a b with
        | none => rfl
        | some e =>
          have := hw.hasEdge_nodes (show σ.hasEdge a b = true by rw [Spec.hasEdge_edge?, he]; rfl)
          rcases h1 with rfl | rfl
          · exact absurd this.2.1 hn
          · exact absurd this.2.2 hn
      · simp [h1]

/-- C06 applies to a node with edges inside and across layers, and to a trajectory node that gets bridged. -/
example : Graph.exec [2, 3] [.emplaceNode 2 1 Sample.at0, .emplaceNode 2 2 Sample.at0, .emplaceNode 3 3 Sample.at0,
      .insertEdge 1 2 none, .insertEdge 3 1 none, .removeNode 1] ≠ .ub ∧
    (Spec.after (Spec.init [2, 3]) [.emplaceNode 2 1 Sample.at0, .emplaceNode 2 2 Sample.at0, .emplaceNode 3 3 Sample.at0,
      .insertEdge 1 2 none, .insertEdge 3 1 none]).crossFree 1 = true := by decide +kernel
example : Reached [2] [.emplaceDyn 2 Sample.pa 1 Sample.at0 true, .emplaceDyn 2 Sample.pa 2 Sample.at0 true,
    .emplaceDyn 2 Sample.pa 3 Sample.at0 true] (match Graph.exec [2] [.emplaceDyn 2 Sample.pa 1 Sample.at0 true,
    .emplaceDyn 2 Sample.pa 2 Sample.at0 true, .emplaceDyn 2 Sample.pa 3 Sample.at0 true] with | .ok (g, _) => g | _ => ⟨[], ∅, ∅, ∅, {}, {}, none⟩) :=
  ⟨by decide, by decide +kernel, ⟨[.bool true, .bool true, .bool true], by decide +kernel⟩⟩

/-- **C07.** `mergeNodes(f, t)` of two different nodes of one static layer succeeds: `f` is gone; each edge from `f` to a
third node `x` is moved to `t`, unless `t` already has an edge to `x`, which then stays as it is; everything else is as before.
In every other case (unknown node, same node, different layers) it answers false and the graph is unchanged. -/
theorem C07_mergeNodes (h : Reached ids ops g) (f t : NodeId) (hc : g.CrossFree f)
    (hs : ∀ l p, g.getLayerForNode f = some (.dyn l p) → f = t ∨ g.getLayerForNode t ≠ some (.dyn l p)) :
    ∃ g' r, g.mergeNodes f t = .ok (g', r) ∧ Reached ids (ops ++ [.mergeNodes f t]) g' ∧
      (r = true ↔ f ≠ t ∧ ∃ l, g.getLayerForNode f = some (.static l) ∧ g.getLayerForNode t = some (.static l)) ∧
      (r = false → g' = g) ∧
      (r = true → g.SameFrame g' ∧
        (∀ m, g'.nodeObs m = if m = f then none else g.nodeObs m) ∧
        (∀ x, g'.edgeObs f x = none) ∧
        (∀ x, x ≠ f → x ≠ t → g'.edgeObs t x =
          match g.edgeObs t x with
          | some e => some e
          | none => (g.edgeObs f x).map (fun e => ⟨t, x, e.attrs⟩)) ∧
        (∀ a b, a ≠ f → b ≠ f → a ≠ t → b ≠ t → g'.edgeObs a b = g.edgeObs a b)) := by
  obtain ⟨hr, hw⟩ := h.rep
  generalize hσ : (Spec.init ids).after ops = σ at hr hw
  have hok : (Op.mergeNodes f t).ok σ = true := by
    simp only [Op.ok, hr.crossFree hw hc, Bool.true_and]
    split
    · rename_i l p hk
      have := hs l p (by rw [hr.getLayerForNode, hk])
      rw [hr.getLayerForNode] at this
      simpa using this
    · rfl
  obtain ⟨g', heq, hreach, hr', hw', _⟩ := h.mut (.mergeNodes f t) hσ hok (r := g.mergeNodes f t) (s := σ.mergeNodes f t) rfl rfl
  have hiff : (σ.mergeNodes f t).2 = true ↔ f ≠ t ∧ ∃ l, g.getLayerForNode f = some (.static l) ∧ g.getLayerForNode t = some (.static l) := by
    rw [hr.getLayerForNode, hr.getLayerForNode]
    unfold Spec.mergeNodes
    split
    · rename_i e; simp [e]
    · rename_i hne
      cases hf : σ.key? f with
      | none => simp
      | some kf =>
        cases ht : σ.key? t with
        | none => simp
        | some kt =>
          simp only
          split
          · rename_i hk
            simp only [Bool.false_eq_true, false_iff, not_and, not_exists]
            intro _ l h1 h2
            cases h1; cases h2; exact hk rfl
          · rename_i hk
            simp only [ne_eq, Classical.not_not] at hk
            subst hk
            simp only [true_iff]
            refine ⟨hne, ?_⟩
            cases kf with
            | static l => exact ⟨l, rfl, rfl⟩
            | dyn l p =>
              exfalso
              have := hs l p (by rw [hr.getLayerForNode, hf])
              rw [hr.getLayerForNode, ht] at this
              rcases this with h1 | h1
              · exact hne h1
              · exact h1 rfl
  refine ⟨g', _, heq, hreach, hiff, ?_, ?_⟩
  · intro hf
    rw [hf] at heq
    unfold Graph.mergeNodes at heq
    split at heq
    · split at heq
      · cases heq; rfl
      · split at heq
        · cases heq; rfl
        · exfalso
          rename_i kf kt h1 h2 h3 h4
          simp only [ne_eq, Classical.not_not] at h4
          subst h4
          rw [hr.lookup'] at h1 h2
          simp [Spec.mergeNodes, h3, h1, h2] at hf
    · cases heq; rfl
  · intro ht
    obtain ⟨hft, l, hkf, hkt⟩ := hiff.1 ht
    rw [hr.getLayerForNode] at hkf hkt
    have hst : (σ.mergeNodes f t).1 = { σ with nodes := σ.nodes.erase f, edges := σ.mergedEdges f t, marks := σ.mergedMarks f t } := by
      simp [Spec.mergeNodes, hft, hkf, hkt]
    have hE := Spec.edge?_mergeNodes hw hft hkf hkt
    refine ⟨?_, ?_, ?_, ?_, ?_⟩
    · refine hr.sameFrame hr' ?_ ?_ ?_ <;> simp [hst]
    · intro m
      rw [hr'.nodeObs hw', hr.nodeObs hw, hst]
      simp only [OMap.find?_erase, eq_comm]
    · intro x; rw [hr'.edgeObs hw', hE]; simp
    · intro x hxf hxt
      rw [hr'.edgeObs hw', hr.edgeObs hw, hr.edgeObs hw, hE]
      simp only [Ne.symm hft, hxf, or_self, if_false, Ne.symm hxt, if_true]
      cases σ.edge? t x <;> simp
    · intro a b h1 h2 h3 h4
      rw [hr'.edgeObs hw', hr.edgeObs hw, hE]
      simp only [h1, h2, h3, h4, or_self, if_false]
      split
      · rename_i e
        subst e
        have := hw.hasEdge_self a
        rw [Spec.hasEdge_edge?] at this
        cases hx : σ.edge? a a <;> simp [hx] at this ⊢
      · rfl

/-- C07 applies to a merge that moves one edge, keeps one, and has a parent. -/
example : (Spec.after (Spec.init [2, 3]) [.emplaceNode 2 1 Sample.at0, .emplaceNode 2 2 Sample.at0, .emplaceNode 2 4 Sample.at0,
      .emplaceNode 3 3 Sample.at0, .insertEdge 1 2 none, .insertEdge 1 4 none, .insertEdge 3 1 none]).crossFree 1 = true ∧
    (match Graph.exec [2, 3] [.emplaceNode 2 1 Sample.at0, .emplaceNode 2 2 Sample.at0, .emplaceNode 2 4 Sample.at0,
      .emplaceNode 3 3 Sample.at0, .insertEdge 1 2 none, .insertEdge 1 4 none, .insertEdge 3 1 none, .mergeNodes 1 2] with
      | .ok (g, _) => (g.edgeObs 2 4).isSome && (g.edgeObs 2 3).isSome && !g.hasNode 1
      | _ => false) = true := by decide +kernel

end Verif
