import Verif.Refine.Run
import Verif.Props.Sample
/-! # C01–C05: structure of the graph after any well-behaved history -/

namespace Verif

variable {ids : List LayerId} {ops : List Op} {g : Graph}

/-- **C01.** A node is known iff some layer has it; that layer is unique and is the one `getLayerForNode` names;
`findNode`/`getNode` return the record with that id and layer, which is the record the layer itself returns. An
unknown node is found nowhere and `getNode` throws `out_of_range`. -/
theorem C01_every_node_in_one_layer (h : Reached ids ops g) (n : NodeId) :
    (g.hasNode n = true ↔ ∃ k b, g.layerFromKey k = .ok b ∧ b.hasNode n = true) ∧
    (∀ k b, g.layerFromKey k = .ok b → b.hasNode n = true → g.getLayerForNode n = some k) ∧
    (g.hasNode n = true → ∃ k b x, g.getLayerForNode n = some k ∧ g.layerFromKey k = .ok b ∧ b.hasNode n = true ∧
      b.findNode n = some x ∧ g.findNode n = .ok (some x) ∧ g.getNode n = .ok x ∧ x.id = n ∧ x.layer = k.layer ∧
      x.attrs.isSome = true) ∧
    (g.hasNode n = false → g.getLayerForNode n = none ∧ g.findNode n = .ok none ∧ g.getNode n = .throw .outOfRange) := by
  obtain ⟨hr, hw⟩ := h.rep
  have key : ∀ k b, g.layerFromKey k = .ok b → b.hasNode n = true → g.getLayerForNode n = some k := by
    intro k b hb hn
    rw [hr.layer_hasNode hb] at hn
    rw [hr.getLayerForNode]; simpa using hn
  have known : g.hasNode n = true → ∃ k b x, g.getLayerForNode n = some k ∧ g.layerFromKey k = .ok b ∧
      b.hasNode n = true ∧ b.findNode n = some x ∧ g.findNode n = .ok (some x) ∧ g.getNode n = .ok x ∧ x.id = n ∧
      x.layer = k.layer ∧ x.attrs.isSome = true := by
    intro hn
    rw [hr.hasNode] at hn
    obtain ⟨i, hi⟩ := OMap.contains_eq_true.1 hn
    have hk : ((Spec.init ids).after ops).key? n = some i.key := by simp [Spec.key?, hi]
    obtain ⟨b, hb⟩ := hr.layerAt? hw hk
    have hb' := Graph.layerFromKey_iff.2 hb
    have hf := hr.findNode hw n
    simp only [hi, Option.map_some] at hf
    have hnd : b.nd n = some (((Spec.init ids).after ops).mkNode n i) := by
      rw [← Graph.view_node_of_layerAt? hb, hr.node]; simp [Spec.nodeRec, hi]
    refine ⟨i.key, b, _, ?_, hb', ?_, ?_, hf, ?_, rfl, rfl, rfl⟩
    · rw [hr.getLayerForNode, hk]
    · rw [hr.layer_hasNode hb']; simp [hk]
    · cases b with
      | static l => exact hnd
      | dyn d => simp only [BaseLayer.findNode, DynLayer.findNode]; rw [(BaseLayer.nd_dyn_lt hnd).2]; rfl
    · simp [Graph.getNode, hf]
  refine ⟨⟨?_, ?_⟩, key, known, ?_⟩
  · intro hn
    obtain ⟨k, b, x, _, h1, h2, _⟩ := known hn
    exact ⟨k, b, h1, h2⟩
  · rintro ⟨k, b, h1, h2⟩
    have := key k b h1 h2
    rw [hr.getLayerForNode] at this
    rw [hr.hasNode]
    unfold Spec.key? at this
    rw [Option.map_eq_some_iff] at this
    obtain ⟨i, hi, _⟩ := this
    exact OMap.contains_eq_true.2 ⟨i, hi⟩
  · intro hn
    rw [hr.hasNode] at hn
    have hi := OMap.contains_eq_false.1 hn
    have hf := hr.findNode hw n
    simp only [hi, Option.map_none] at hf
    exact ⟨by rw [hr.getLayerForNode]; simp [Spec.key?, hi], hf, by simp [Graph.getNode, hf]⟩

/-- The hypothesis of C01–C04 is met by the sample history, whose graph has nodes in static and dynamic layers. -/
example : Reached Sample.ids Sample.ops Sample.state ∧ Sample.state.hasNode 10 = true ∧
    Sample.state.hasNode (Sample.a 2) = true ∧ Sample.state.hasNode (Sample.a 1) = false ∧
    Sample.state.getLayerForNode (Sample.a 2) = some (.dyn 2 Sample.pa) :=
  ⟨Sample.reached, by decide +kernel, by decide +kernel, by decide +kernel, by decide +kernel⟩

/-- **C02.** `hasEdge` never faults, is symmetric, and holds only between two different nodes of the graph. An
edge record stored in any container of the graph is the edge `findEdge` returns for its endpoints, and is stored in no other
container. -/
theorem C02_edges_well_formed (h : Reached ids ops g) :
    (∀ a b, ∃ r, g.hasEdge a b = .ok r ∧ g.hasEdge b a = .ok r ∧ (r = true ↔ (g.edgeObs a b).isSome = true) ∧
      (r = true → a ≠ b ∧ g.hasNode a = true ∧ g.hasNode b = true)) ∧
    (∀ a b, g.edgeObs a b = g.edgeObs b a) ∧
    (∀ c ec key e, g.container c = some ec → ec.edges.find? key = some e →
      key = EdgeKey.of e.source e.target ∧ e.source ≠ e.target ∧ g.hasEdge e.source e.target = .ok true ∧
      ∃ i, e.info = some i ∧ g.edgeObs e.source e.target = some ⟨e.source, e.target, i⟩) ∧
    (∀ c c' ec ec' key, g.container c = some ec → g.container c' = some ec' →
      ec.edges.contains key = true → ec'.edges.contains key = true → c = c') := by
  obtain ⟨hr, hw⟩ := h.rep
  have hc : ∀ c ec, g.container c = some ec → g.view.ec c = ec := by
    intro c ec hc
    cases c with
    | within k =>
      simp only [Graph.container] at hc
      cases hb : g.layerFromKey k with
      | ok b =>
        rw [hb] at hc
        cases hc
        rw [Graph.layerFromKey_iff] at hb
        simp [Graph.view, Graph.ecAt?, hb]
      | throw e => rw [hb] at hc; cases hc
      | ub => rw [hb] at hc; cases hc
    | across b => cases b <;> (cases hc; rfl)
  have hrec : ∀ c ec key e, g.container c = some ec → ec.edges.find? key = some e →
      ∃ i, ((Spec.init ids).after ops).edges.find? key = some i ∧ ((Spec.init ids).after ops).placeOf key = some c ∧
        e = Spec.mkEdge i := by
    intro c ec key e h1 h2
    have h3 := (hr.ec c).edges key
    rw [hc c ec h1, h2] at h3
    unfold Spec.edgeRec at h3
    cases hi : ((Spec.init ids).after ops).edges.find? key with
    | none => rw [hi] at h3; cases h3
    | some i =>
      rw [hi] at h3
      simp only [Option.bind_some] at h3
      split at h3
      · rename_i hp; cases h3; exact ⟨i, rfl, hp, rfl⟩
      · cases h3
  refine ⟨?_, ?_, ?_, ?_⟩
  · intro a b
    refine ⟨_, hr.hasEdge hw a b, ?_, ?_, ?_⟩
    · rw [hr.hasEdge hw b a]; simp [Spec.hasEdge, EdgeKey.of_comm a b]
    · rw [hr.edgeObs hw]; rfl
    · intro he
      rw [hr.hasNode, hr.hasNode]
      exact hw.hasEdge_nodes he
  · intro a b; rw [hr.edgeObs hw, hr.edgeObs hw]; simp [Spec.edge?, EdgeKey.of_comm a b]
  · intro c ec key e h1 h2
    obtain ⟨i, hi, _, rfl⟩ := hrec c ec key e h1 h2
    obtain ⟨e1, e2, _, _⟩ := hw.edge key i hi
    have hf : ((Spec.init ids).after ops).edge? i.src i.tgt = some i := by unfold Spec.edge?; rw [← e1]; exact hi
    refine ⟨e1, e2, ?_, i.attrs, rfl, ?_⟩
    · rw [hr.hasEdge hw]
      exact congrArg Res.ok (OMap.contains_eq_true.2 ⟨i, hf⟩)
    · rw [hr.edgeObs hw]; exact hf
  · intro c c' ec ec' key h1 h2 h3 h4
    obtain ⟨e, h3⟩ := OMap.contains_eq_true.1 h3
    obtain ⟨e', h4⟩ := OMap.contains_eq_true.1 h4
    obtain ⟨_, _, p1, _⟩ := hrec c ec key e h1 h3
    obtain ⟨_, _, p2, _⟩ := hrec c' ec' key e' h2 h4
    rw [p1] at p2; cases p2; rfl

example : Sample.state.hasEdge 10 12 = .ok true ∧ Sample.state.hasEdge 12 10 = .ok true ∧
    Sample.state.hasEdge 10 11 = .ok false ∧ Sample.state.hasEdge 10 10 = .ok false := by decide +kernel

/-- **C03.** The adjacency sets of a node are exactly the edges, split by layer id. -/
theorem C03_adjacency_matches_edges (h : Reached ids ops g) (n m : NodeId) {ps ss cs : OSet NodeId}
    (ha : g.adjObs n = some (ps, ss, cs)) :
    (ss.contains m = true ↔ g.hasEdge n m = .ok true ∧
      ∃ kn km, g.getLayerForNode n = some kn ∧ g.getLayerForNode m = some km ∧ km.layer = kn.layer) ∧
    (cs.contains m = true ↔ g.hasEdge n m = .ok true ∧
      ∃ kn km, g.getLayerForNode n = some kn ∧ g.getLayerForNode m = some km ∧ km.layer < kn.layer) ∧
    (ps.contains m = true ↔ g.hasEdge n m = .ok true ∧
      ∃ kn km, g.getLayerForNode n = some kn ∧ g.getLayerForNode m = some km ∧ kn.layer < km.layer) := by
  obtain ⟨hr, hw⟩ := h.rep
  rw [hr.adjObs hw] at ha
  rw [Option.map_eq_some_iff] at ha
  obtain ⟨i, hi, e⟩ := ha
  cases e
  rw [hr.hasEdge hw, hr.getLayerForNode, hr.getLayerForNode]
  have hk : ((Spec.init ids).after ops).key? n = some i.key := by simp [Spec.key?, hi]
  simp only [Spec.siblings, Spec.children, Spec.parents, Spec.contains_nbrs, hk]
  refine ⟨?_, ?_, ?_⟩ <;>
  · cases hm : ((Spec.init ids).after ops).key? m with
    | none => simp
    | some km => simp [and_comm]

example : Sample.state.adjObs 10 = some ((∅ : OSet NodeId).add 21, (∅ : OSet NodeId).add 12, ∅) := by decide +kernel
example : Sample.state.adjObs 21 = some (∅, ∅, (∅ : OSet NodeId).add 10) := by decide +kernel

/-- **C04.** The whole history refines the abstract graph: no fault, every answer is the abstract one, and at the
end all observations (layers, nodes, edges, adjacency, mesh) are those of the abstract graph. -/
theorem C04_refines_maps (hids : ids ≠ []) (hok : Op.okAll (Spec.init ids) ops = true) :
    ∃ g outs, Graph.exec ids ops = .ok (g, outs) ∧ Agree ((Spec.init ids).run ops).2 outs ∧
      let σ := (Spec.init ids).after ops
      g.layerIds = σ.layerIds ∧ g.mesh = σ.mesh ∧
      (∀ l, g.hasLayer l = σ.layerIds.contains l) ∧ (∀ l p, g.hasDynLayer l p = σ.dyn.contains (l, p)) ∧
      (∀ n, g.hasNode n = σ.nodes.contains n) ∧ (∀ n, g.nodeObs n = σ.nodes.find? n) ∧
      (∀ a b, g.hasEdge a b = .ok (σ.hasEdge a b)) ∧ (∀ a b, g.edgeObs a b = σ.edge? a b) := by
  obtain ⟨g, outs, e, hr, hw, ha⟩ := exec_ok hids hok
  refine ⟨g, outs, e, ha, hr.layerIds, hr.mesh, ?_, ?_, hr.hasNode, hr.nodeObs hw, hr.hasEdge hw, hr.edgeObs hw⟩
  · intro l; exact hr.static_layer l
  · intro l p; exact hr.dyn_layer l p

example : Op.okAll (Spec.init Sample.ids) Sample.ops = true := Sample.ops_ok
/-- The sample's abstract graph ends with 8 nodes and 3 edges. -/
example : ((Spec.init Sample.ids).after Sample.ops).nodes.size = 8 ∧
    ((Spec.init Sample.ids).after Sample.ops).edges.size = 3 := by decide +kernel

/-- **C05.** A well-behaved history never throws and never has undefined behaviour, and neither do the read-only
queries afterwards: `findNode`, `hasEdge`, `checkNode` on any id, `getPosition` on any known node. -/
theorem C05_no_fault (hids : ids ≠ []) (hok : Op.okAll (Spec.init ids) ops = true) :
    ∃ g outs, Graph.exec ids ops = .ok (g, outs) ∧
      (∀ n, ∃ x, g.findNode n = .ok x) ∧ (∀ a b, ∃ r, g.hasEdge a b = .ok r) ∧
      (∀ n, ∃ s, g.checkNode n = .ok s ∧ (g.hasNode n = true ↔ s = .new ∨ s = .visible)) ∧
      (∀ n, g.hasNode n = true → ∃ i, g.nodeObs n = some i ∧ g.getPosition n = .ok i.attrs.position) := by
  obtain ⟨g, outs, e, hr, hw, _⟩ := exec_ok hids hok
  refine ⟨g, outs, e, fun n => ⟨_, hr.findNode hw n⟩, fun a b => ⟨_, hr.hasEdge hw a b⟩, ?_, ?_⟩
  · intro n
    rw [hr.hasNode]
    unfold Graph.checkNode
    rw [hr.lookup']
    cases hn : ((Spec.init ids).after ops).nodes.find? n with
    | none => exact ⟨.nonexistent, by simp [Spec.key?, hn], by simp [OMap.contains, hn]⟩
    | some i =>
      have hk : ((Spec.init ids).after ops).key? n = some i.key := by simp [Spec.key?, hn]
      obtain ⟨b, hb⟩ := hr.layerAt? hw hk
      have hnd : b.nd n = some (((Spec.init ids).after ops).mkNode n i) := by
        rw [← Graph.view_node_of_layerAt? hb, hr.node]; simp [Spec.nodeRec, hn]
      have hl := hr.blive hb n
      rw [hnd] at hl
      simp only [hk, Graph.layerFromKey_iff.2 hb, Res.bind_ok]
      have hlive : ∃ s, b.nst n = some s ∧ (s = .new ∨ s = .visible) := by
        cases hs : b.nst n with
        | none => rw [hs] at hl; cases hl
        | some s =>
          refine ⟨s, rfl, ?_⟩
          rw [hs] at hl
          cases s <;> simp_all [NodeStatus.live]
      obtain ⟨s, hs, hs'⟩ := hlive
      refine ⟨s, ?_, by simp [OMap.contains, hn, hs']⟩
      cases b with
      | static l => simp only [BaseLayer.nst] at hs; simp [BaseLayer.checkNode, Layer.checkNode, hs]
      | dyn d =>
        simp only [BaseLayer.nst] at hs
        split at hs
        · rename_i hm; simp [BaseLayer.checkNode, DynLayer.checkNode, hm, hs]
        · cases hs
  · intro n hn
    rw [hr.hasNode] at hn
    obtain ⟨i, hi⟩ := OMap.contains_eq_true.1 hn
    refine ⟨i, by rw [hr.nodeObs hw, hi], ?_⟩
    have hk : ((Spec.init ids).after ops).key? n = some i.key := by simp [Spec.key?, hi]
    obtain ⟨b, hb⟩ := hr.layerAt? hw hk
    have hnd : b.nd n = some (((Spec.init ids).after ops).mkNode n i) := by
      rw [← Graph.view_node_of_layerAt? hb, hr.node]; simp [Spec.nodeRec, hi]
    have hh : b.hasNode n = true := by rw [BaseLayer.hasNode_eq (hr.blive hb), hnd]; rfl
    unfold Graph.getPosition
    rw [hr.lookup']
    simp only [hk, Graph.layerFromKey_iff.2 hb, Res.bind_ok]
    cases b with
    | static l =>
      simp only [BaseLayer.nd] at hnd
      simp [BaseLayer.getPosition, Layer.getPosition, hnd, Spec.mkNode]
    | dyn d =>
      simp only [BaseLayer.hasNode] at hh
      simp [BaseLayer.getPosition, DynLayer.getPosition, hh, (BaseLayer.nd_dyn_lt hnd).2, Spec.mkNode]

end Verif
