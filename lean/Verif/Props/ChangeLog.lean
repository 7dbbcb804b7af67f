import Verif.Refine.LogRun
import Verif.Props.Sample
/-! # C13–C15: what is reported as new and as removed -/

namespace Verif

variable {ids : List LayerId} {pre mid : List Op} {g : Graph}

/-- After the history, `n` is in layer `k`. -/
def InLayer (ids : List LayerId) (ops : List Op) (n : NodeId) (k : LayerKey) : Prop :=
  ∃ g, Reached ids ops g ∧ g.getLayerForNode n = some k

/-- In the history, `n` was merged away from layer `k`, and since then has not been in that layer again and the graph was
not wiped. -/
def MergedAway (ids : List LayerId) (ops : List Op) (n : NodeId) (k : LayerKey) : Prop :=
  ∃ a t b, ops = a ++ .mergeNodes n t :: b ∧ InLayer ids a n k ∧ (∀ op ∈ b, op.wipes = false) ∧
    ∀ j, ¬ InLayer ids (a ++ .mergeNodes n t :: b.take j) n k

theorem Reached.inLayer_iff (h : Reached ids (pre ++ mid) g) (j : Nat) (n : NodeId) (k : LayerKey) :
    InLayer ids (pre ++ mid.take j) n k ↔ (((Spec.init ids).after pre).after (mid.take j)).key? n = some k := by
  obtain ⟨g1, h1⟩ := h.take_mid j
  obtain ⟨hr, _⟩ := h1.rep
  rw [Spec.after_append] at hr
  constructor
  · rintro ⟨g2, h2, e⟩
    rw [h1.unique h2] at e
    rwa [hr.getLayerForNode] at e
  · intro e; exact ⟨g1, h1, by rwa [hr.getLayerForNode]⟩

/-- **C13.** The last clearing query of new nodes (or the construction of the graph) is the end of `pre`; `mid` are the calls
since. Then the new nodes are exactly the nodes that are present and were absent at some moment since; each is listed once;
and a query that does not clear changes nothing. -/
theorem C13_new_nodes (h : Reached ids (pre ++ mid) g) (hpre : pre = [] ∨ ∃ p, pre = p ++ [.newNodes true])
    (hmid : Op.newNodes true ∉ mid) (clear : Bool) :
    (∀ n, n ∈ (g.getNewNodes clear).2 ↔ g.hasNode n = true ∧
      ∃ j gj, Reached ids (pre ++ mid.take j) gj ∧ gj.hasNode n = false) ∧
    (g.getNewNodes clear).2.Nodup ∧ (g.getNewNodes false).1 = g := by
  obtain ⟨hr, hw⟩ := h.rep
  obtain ⟨g0, h0⟩ := h.take
  obtain ⟨outs, e, hok⟩ := h.tail h0
  obtain ⟨hr0, hw0⟩ := h0.rep
  refine ⟨fun n => ?_, hr.nodup_new clear, g.getNewNodes_false⟩
  rw [hr.mem_new, hr.hasNode]
  have := hr0.new_run hw0 hok e hmid n
  unfold Graph.isNew at this
  rw [this, Spec.after_append]
  refine and_congr_right fun _ => ?_
  constructor
  · rintro (⟨j, hj⟩ | hn)
    · obtain ⟨gj, h1⟩ := h.take_mid j
      exact ⟨j, gj, h1, by rw [h1.rep.1.hasNode, Spec.after_append]; exact hj⟩
    · exact absurd hn (h0.no_new hpre n)
  · rintro ⟨j, gj, h1, h2⟩
    rw [h1.rep.1.hasNode, Spec.after_append] at h2
    exact .inl ⟨j, h2⟩

/-- `getDynamicLayer(l, p).nodes().size()`, or 0 if there is no such layer: one past the highest index ever used. -/
def Graph.slots (g : Graph) (l : LayerId) (p : Prefix) : Nat :=
  match g.dynLayer? l p with
  | some d => d.nodes.length
  | none => 0

theorem R.slots {σ : Spec} (h : R g σ) (l : LayerId) (p : Prefix) : g.slots l p = (σ.dynInfo l p).top := by
  unfold Graph.slots
  cases hd : g.dynLayer? l p with
  | some d =>
    obtain ⟨_, _, _, i4, _⟩ := h.info (.dyn l p) (BaseLayer.info (.dyn d)) (by simp [Graph.view, Graph.layerAt?, hd])
    exact i4
  | none =>
    have : σ.dyn.contains (l, p) = false := by rw [← h.dyn_layer]; simp [Graph.hasDynLayer, hd]
    simp [Spec.dynInfo, OMap.contains_eq_false.1 this]

/-- The call number `j` of `mid` is a call that back-fills a node whose id has the prefix of `n` (`emplaceNode(layer, id, time, attrs)`,
`addOrUpdateNode` with a stamp), and it makes the number of slots of the dynamic layer `k` named by that prefix grow from less than the index
of `n` to at least the index of `n`. -/
def SkippedOver (ids : List LayerId) (pre mid : List Op) (n : NodeId) (k : LayerKey) : Prop :=
  ∃ j op gj gj' l, mid[j]? = some op ∧ op.backfillsNear n = true ∧ Reached ids (pre ++ mid.take j) gj ∧
    Reached ids (pre ++ mid.take (j + 1)) gj' ∧ k = .dyn l (Prefix.fromId n) ∧
    gj.slots l (Prefix.fromId n) < (Prefix.fromId n).index n ∧ (Prefix.fromId n).index n ≤ gj'.slots l (Prefix.fromId n)

theorem Reached.skippedOver_iff (h : Reached ids (pre ++ mid) g) (n : NodeId) (k : LayerKey) :
    SkippedOver ids pre mid n k ↔ ∃ j op, mid[j]? = some op ∧ (((Spec.init ids).after pre).after (mid.take j)).pads op k n := by
  have st : ∀ j op, mid[j]? = some op → ((Spec.init ids).after (pre ++ mid.take (j + 1))) =
      ((((Spec.init ids).after pre).after (mid.take j)).step op).1 := by
    intro j op hj
    rw [List.take_add_one, hj, Spec.after_append, Spec.after_append]
    rfl
  constructor
  · rintro ⟨j, op, gj, gj', l, h1, h2, h3, h4, h5, h6, h7⟩
    refine ⟨j, op, h1, l, h5, h2, ?_, ?_⟩
    · rw [h3.rep.1.slots, Spec.after_append] at h6; exact h6
    · rw [h4.rep.1.slots, st j op h1] at h7; exact h7
  · rintro ⟨j, op, h1, l, h5, h2, h6, h7⟩
    obtain ⟨gj, h3⟩ := h.take_mid j
    obtain ⟨gj', h4⟩ := h.take_mid (j + 1)
    refine ⟨j, op, gj, gj', l, h1, h2, h3, h4, h5, ?_, ?_⟩
    · rw [h3.rep.1.slots, Spec.after_append]; exact h6
    · rw [h4.rep.1.slots, st j op h1]; exact h7

/-- **C14.** The last call that forgets removed nodes (a clearing query, `clear`, `reset`, or the construction) is the
end of `pre`; `mid` are the calls since. Then a node is reported iff it was in some layer at a moment since and is not in that
layer now, or it was merged away from a layer it has not been in since, or a call since then back-filled a node of the same trajectory and
skipped over this id (`C14_backfill_reports_phantom`: such an id need never have existed). Reading the list changes nothing unless asked. -/
theorem C14_removed_nodes (h : Reached ids (pre ++ mid) g)
    (hpre : pre = [] ∨ ∃ p op, pre = p ++ [op] ∧ (op = .removedNodes true ∨ op.wipes = true))
    (hmid : Op.removedNodes true ∉ mid) (hwipe : ∀ op ∈ mid, op.wipes = false) (clear : Bool) :
    (∀ n, n ∈ (g.getRemovedNodes clear).2 ↔ ∃ k, g.getLayerForNode n ≠ some k ∧
        ((∃ j, InLayer ids (pre ++ mid.take j) n k) ∨ MergedAway ids pre n k ∨ SkippedOver ids pre mid n k)) ∧
    (g.getRemovedNodes false).1 = g := by
  obtain ⟨hr, hw⟩ := h.rep
  obtain ⟨g0, h0⟩ := h.take
  obtain ⟨outs, e, hok⟩ := h.tail h0
  obtain ⟨hr0, hw0⟩ := h0.rep
  refine ⟨fun n => ?_, g.getRemovedNodes_false⟩
  rw [hr.mem_removed, hr.getLayerForNode, Spec.after_append]
  refine exists_congr fun k => ?_
  have := hr0.gone_run hw0 hok e hmid hwipe (n := n) k
  unfold Graph.isGone at this
  rw [this]
  refine and_congr_right fun _ => or_congr ?_ (or_congr ?_ (h.skippedOver_iff n k).symm)
  · exact exists_congr fun j => (h.inLayer_iff j n k).symm
  · rw [show (g0.view.st k n = some .deleted ∨ (k.dynamic = false ∧ g0.view.st k n = some .merged)) ↔
        k.dynamic = false ∧ g0.isMerged k n from h0.no_gone hpre k n]
    obtain ⟨gi, hi⟩ := Reached.take (a := []) (b := pre) (by simpa using h0)
    obtain ⟨o0, e0, hok0⟩ := Reached.tail (a := []) (b := pre) (by simpa using h0) hi
    obtain ⟨hri, hwi⟩ := hi.rep
    have hno : ¬ gi.isMerged k n := by
      unfold Graph.isMerged; rw [hi.create_eq, Graph.clear_st]; simp
    have inl : ∀ ops, (∃ rest, ops ++ rest = pre) → (InLayer ids ops n k ↔ ((Spec.init ids).after ops).key? n = some k) := by
      rintro ops ⟨rest, hrest⟩
      rw [← hrest] at h0
      have := Reached.inLayer_iff (pre := ops) (mid := rest) h0 0 n k
      simpa using this
    constructor
    · rintro ⟨hkd, hm⟩
      rw [hri.merged_run hwi hok0 e0 n hkd] at hm
      simp only [hno, and_false, false_or, Spec.after_nil] at hm
      obtain ⟨a, t, b, rfl, h2, h3, h4⟩ := hm
      refine ⟨a, t, b, rfl, (inl a ⟨_, rfl⟩).2 h2, h3, fun j => ?_⟩
      rw [inl _ ⟨b.drop j, by rw [List.append_assoc, List.cons_append, List.take_append_drop]⟩]
      exact h4 j
    · rintro ⟨a, t, b, rfl, h2, h3, h4⟩
      rw [inl a ⟨_, rfl⟩] at h2
      have h4' : ∀ j, ((Spec.init ids).after (a ++ .mergeNodes n t :: b.take j)).key? n ≠ some k := by
        intro j
        have := h4 j
        rwa [inl _ ⟨b.drop j, by rw [List.append_assoc, List.cons_append, List.take_append_drop]⟩] at this
      have hkd : k.dynamic = false := by
        have hok1 := h0.ok
        rw [Op.okAll_append] at hok1
        simp only [Op.okAll, Bool.and_eq_true] at hok1
        refine Spec.mergeNodes_static hok1.2.1 h2 ?_
        have := h4' 0
        rwa [List.take_zero, Spec.after_append] at this
      refine ⟨hkd, ?_⟩
      rw [hri.merged_run hwi hok0 e0 n hkd]
      exact .inr ⟨a, t, b, rfl, h2, h3, h4'⟩

/-- **C15, inserted edges.** The last clearing query of new edges (or the construction) is the end of `pre`; `mid` are the
calls since. The new edges are exactly those present and absent at some moment since; each is listed once. -/
theorem C15_new_edges (h : Reached ids (pre ++ mid) g) (hpre : pre = [] ∨ ∃ p, pre = p ++ [.newEdges true])
    (hmid : Op.newEdges true ∉ mid) (clear : Bool) :
    (∀ a b, EdgeKey.of a b ∈ (g.getNewEdges clear).2 ↔ g.hasEdge a b = .ok true ∧
      ∃ j gj, Reached ids (pre ++ mid.take j) gj ∧ gj.hasEdge a b = .ok false) ∧
    (∀ key ∈ (g.getNewEdges clear).2, ∃ a b, key = EdgeKey.of a b) ∧
    (g.getNewEdges clear).2.Nodup ∧ (g.getNewEdges false).1 = g := by
  obtain ⟨hr, hw⟩ := h.rep
  obtain ⟨g0, h0⟩ := h.take
  obtain ⟨outs, e, hok⟩ := h.tail h0
  obtain ⟨hr0, hw0⟩ := h0.rep
  refine ⟨fun a b => ?_, fun key hk => ?_, hr.nodup_newEdges clear, g.getNewEdges_false⟩
  · rw [R.mem_newEdges, hr.hasEdge hw]
    have := hr0.newE_run hw0 hok e hmid (EdgeKey.of a b)
    unfold Graph.isNewE at this
    rw [this, Spec.after_append]
    simp only [Spec.hasEdge, Res.ok.injEq]
    refine and_congr_right fun _ => ?_
    constructor
    · rintro (⟨j, hj⟩ | hn)
      · obtain ⟨gj, h1⟩ := h.take_mid j
        refine ⟨j, gj, h1, ?_⟩
        rw [h1.rep.1.hasEdge h1.rep.2, Spec.after_append]; exact congrArg _ hj
      · exact absurd hn (h0.no_newE hpre _)
    · rintro ⟨j, gj, h1, h2⟩
      rw [h1.rep.1.hasEdge h1.rep.2, Spec.after_append] at h2
      exact .inl ⟨j, Res.ok.inj h2⟩
  · obtain ⟨c, hc⟩ := (R.mem_newEdges g clear key).1 hk
    obtain ⟨a, b, e, _⟩ := hw.key_form (hr.newEdge_place hc).1
    exact ⟨a, b, e⟩

/-- **C15, removed edges.** The last call that forgets removed edges (a clearing query, `clear`, `reset`, or the construction) is
the end of `pre`; `mid` are the calls since. A pair with no edge now is reported iff it had an edge at some moment since. A pair
that has an edge now is reported only if an endpoint was removed and came back in another layer since. -/
theorem C15_removed_edges (h : Reached ids (pre ++ mid) g)
    (hpre : pre = [] ∨ ∃ p op, pre = p ++ [op] ∧ (op = .removedEdges true ∨ op.wipes = true))
    (hmid : Op.removedEdges true ∉ mid) (hwipe : ∀ op ∈ mid, op.wipes = false) (clear : Bool) :
    (∀ a b, g.hasEdge a b = .ok false → (EdgeKey.of a b ∈ (g.getRemovedEdges clear).2 ↔
      ∃ j gj, Reached ids (pre ++ mid.take j) gj ∧ gj.hasEdge a b = .ok true)) ∧
    (∀ a b, g.hasEdge a b = .ok true → EdgeKey.of a b ∈ (g.getRemovedEdges clear).2 →
      ∃ j gj, Reached ids (pre ++ mid.take j) gj ∧ gj.hasEdge a b = .ok true ∧
        ¬ (gj.getLayerForNode a = g.getLayerForNode a ∧ gj.getLayerForNode b = g.getLayerForNode b)) ∧
    (∀ key ∈ (g.getRemovedEdges clear).2, ∃ a b, key = EdgeKey.of a b) ∧
    (g.getRemovedEdges false).1 = g := by
  obtain ⟨hr, hw⟩ := h.rep
  obtain ⟨g0, h0⟩ := h.take
  obtain ⟨outs, e, hok⟩ := h.tail h0
  obtain ⟨hr0, hw0⟩ := h0.rep
  have main : ∀ key, key ∈ (g.getRemovedEdges clear).2 ↔ ∃ c, ((Spec.init ids).after (pre ++ mid)).at c key = false ∧
      ∃ j, ((Spec.init ids).after (pre ++ mid.take j)).at c key = true := by
    intro key
    rw [R.mem_removedEdges]
    refine exists_congr fun c => ?_
    have := hr0.goneE_run hw0 hok e hmid hwipe c key
    unfold Graph.isGoneE at this
    rw [this, Spec.after_append]
    refine and_congr_right fun _ => ?_
    have hno : ¬ (g0.view.ec c).status.find? key = some .deleted := h0.no_goneE hpre c key
    simp only [hno, or_false, Spec.after_append]
  have reach : ∀ j, ∃ gj, Reached ids (pre ++ mid.take j) gj ∧ R gj ((Spec.init ids).after (pre ++ mid.take j)) ∧
      SWF ((Spec.init ids).after (pre ++ mid.take j)) := by
    intro j
    obtain ⟨gj, h1⟩ := h.take_mid j
    exact ⟨gj, h1, h1.rep⟩
  refine ⟨fun a b hab => ?_, fun a b hab hrep => ?_, fun key hk => ?_, g.getRemovedEdges_false⟩
  · rw [main]
    rw [hr.hasEdge hw, Res.ok.injEq] at hab
    constructor
    · rintro ⟨c, _, j, hj⟩
      obtain ⟨gj, h1, h2, h3⟩ := reach j
      exact ⟨j, gj, h1, by rw [h2.hasEdge h3]; exact congrArg _ (Spec.at_contains hj)⟩
    · rintro ⟨j, gj, h1, h4⟩
      rw [h1.rep.1.hasEdge h1.rep.2, Res.ok.injEq] at h4
      obtain ⟨c, hc⟩ := h1.rep.2.at_of_contains h4
      refine ⟨c, ?_, j, hc⟩
      unfold Spec.at; rw [show OMap.contains _ _ = false from hab]; rfl
  · obtain ⟨c, h1, j, hj⟩ := (main _).1 hrep
    rw [hr.hasEdge hw, Res.ok.injEq] at hab
    obtain ⟨gj, h2, h3, h4⟩ := reach j
    refine ⟨j, gj, h2, by rw [h3.hasEdge h4]; exact congrArg _ (Spec.at_contains hj), ?_⟩
    rintro ⟨e1, e2⟩
    rw [h3.getLayerForNode, hr.getLayerForNode] at e1 e2
    have he := Spec.at_contains hj
    obtain ⟨_, n1, n2⟩ := h4.hasEdge_nodes he
    obtain ⟨ka, ha⟩ := Spec.key_of_contains n1
    obtain ⟨kb, hb⟩ := Spec.key_of_contains n2
    have p1 := Spec.placeOf_of ha hb
    rw [ha] at e1; rw [hb] at e2
    have p2 := Spec.placeOf_of e1.symm e2.symm
    simp only [Spec.at, Bool.and_eq_true, decide_eq_true_eq] at hj
    rw [p1] at hj
    simp only [Spec.at, p2, hj.2, decide_true, Bool.and_true] at h1
    have : OMap.contains _ _ = true := hab
    rw [this] at h1; cases h1
  · obtain ⟨c, _, j, hj⟩ := (main _).1 hk
    obtain ⟨gj, h1, h2, h3⟩ := reach j
    obtain ⟨a, b, e, _⟩ := h3.key_form (Spec.at_contains hj)
    exact ⟨a, b, e⟩

/-! ## The hypotheses are met, and the limits are real -/

/-- A history with all four queries: node 2 is removed and added again, 3 merged into 1, edges come and go. -/
def logSample : List Op :=
  [.emplaceNode 2 1 Sample.at0, .emplaceNode 2 2 Sample.at0, .emplaceNode 2 3 Sample.at0, .emplaceNode 3 4 Sample.at0,
   .insertEdge 1 2 none, .insertEdge 2 3 none, .insertEdge 4 1 none, .newNodes true, .newEdges true, .removedNodes true, .removedEdges true,
   .removeNode 2, .emplaceNode 2 2 Sample.at0, .mergeNodes 3 1, .removeNode 4, .insertEdge 1 2 none, .emplaceNode 3 5 Sample.at0]

/-- What the four queries say after it. -/
example : (match Graph.exec [2, 3] logSample with
    | .ok (g, _) => ((g.getNewNodes true).2, (g.getRemovedNodes true).2, (g.getNewEdges true).2, (g.getRemovedEdges true).2)
    | _ => ([], [], [], [])) = ([2, 5], [3, 4], [EdgeKey.of 1 2], [EdgeKey.of 2 3, EdgeKey.of 1 4]) ∧
    Op.okAll (Spec.init [2, 3]) logSample = true := by
  exact ⟨by decide +kernel, by decide +kernel⟩

/-- Back-filling a dynamic node reports an id that never existed as removed: after adding only `a0` (as every clone and every
loaded graph does), the graph claims that `a1` was removed. -/
theorem C14_backfill_reports_phantom :
    (match Graph.exec [2] [.emplacePrev 2 (Prefix.makeId 0x61000000 0) 7 Sample.at0] with
      | .ok (g, _) => (g.getRemovedNodes false).2 | _ => []) = [Prefix.makeId 0x61000000 1] ∧
    Op.okAll (Spec.init [2]) [.emplacePrev 2 (Prefix.makeId 0x61000000 0) 7 Sample.at0] = true := by decide +kernel

/-- A node that is removed from one layer and added again in another is reported as removed although it is present (it is in
both lists), and a second removal reports it twice. -/
theorem C14_moved_node_is_reported :
    (match Graph.exec [2, 3] [.emplaceNode 2 1 Sample.at0, .newNodes true, .removeNode 1, .emplaceNode 3 1 Sample.at0] with
      | .ok (g, _) => (g.hasNode 1, (g.getNewNodes false).2, (g.getRemovedNodes false).2) | _ => (false, [], [])) = (true, [1], [1]) ∧
    (match Graph.exec [2, 3] [.emplaceNode 2 1 Sample.at0, .removeNode 1, .emplaceNode 3 1 Sample.at0, .removeNode 1] with
      | .ok (g, _) => (g.getRemovedNodes false).2 | _ => []) = [1, 1] := by decide +kernel

/-- A merged node is reported again after every clearing query. -/
theorem C14_merged_node_is_reported_forever :
    (match Graph.exec [2] [.emplaceNode 2 1 Sample.at0, .emplaceNode 2 2 Sample.at0, .mergeNodes 2 1, .removedNodes true, .removedNodes true] with
      | .ok (g, _) => (g.getRemovedNodes true).2 | _ => []) = [2] := by decide +kernel

end Verif
