import Verif.Lemmas.PyIter
import Verif.Props.Sample
/-!
# C53: iterating from Python

`Py.Loop C s L e` (Model/PyIter.lean): a Python `for` loop over the iterator `s` sees the elements `L`, in this order, and ends as `e` says;
a loop has one course only (`Py.Loop.unique`).
-/

namespace Verif
open Py

variable {ids : List LayerId} {ops : List Op} {g : Graph}

/-- **C53, `graph.nodes`.** Exactly the nodes of static layers, each once, with the record `findNode` gives. -/
theorem C53_graph_nodes (h : Reached ids ops g) :
    ∃ L, Loop globalNodeIter (setNodeIter g.layers.toList) L .stop ∧ (L.map Node.id).Nodup ∧
      ∀ x, x ∈ L ↔ (∃ l, g.getLayerForNode x.id = some (.static l)) ∧ g.findNode x.id = .ok (some x) := by
  obtain ⟨hR, hw⟩ := h.rep
  generalize (Spec.init ids).after ops = σ at hR hw
  let f : BaseLayer → BaseLayer × List Node := fun b => (b, match b with | .static l => l.nodes.toList.map Prod.snd | .dyn _ => [])
  have hv : (g.visitLayers f).2 = g.staticNodes := by
    simp [f, Graph.visitLayers, Graph.staticNodes]
  have hrec : ∀ k b, g.layerAt? k = some b → ∀ x ∈ (f b).2, ∃ l i, k = .static l ∧ σ.nodes.find? x.id = some i ∧ i.key = k ∧ x = σ.mkNode x.id i := by
    intro k b hb x hx
    cases k with
    | static l =>
      simp only [Graph.layerAt?, Option.map_eq_some_iff] at hb
      obtain ⟨y, hy, rfl⟩ := hb
      obtain ⟨⟨n, x'⟩, hx', rfl⟩ := List.mem_map.1 hx
      obtain ⟨i, h1, h2, h3⟩ := hR.static_slot hy (OMap.mem_toList.1 hx')
      have hid : x'.id = n := by rw [h3]; rfl
      exact ⟨l, i, rfl, by simp only [hid]; exact h1, h2, by simp only [hid]; exact h3⟩
    | dyn l p =>
      simp only [Graph.layerAt?, Option.map_eq_some_iff] at hb
      obtain ⟨y, hy, rfl⟩ := hb
      cases hx
  refine ⟨g.staticNodes, loop_globalNodes _, ?_, ?_⟩
  · have hv' : (g.visitLayers (fun b => (b, (f b).2.map Node.id))).2 = g.staticNodes.map Node.id := by
      rw [← hv]; simp only [Graph.visitLayers, List.map_append, List.map_flatMap]
    rw [← hv']
    refine g.nodup_visit _ ?_ ?_
    · intro k b hb
      cases k with
      | static l =>
        simp only [Graph.layerAt?, Option.map_eq_some_iff] at hb
        obtain ⟨y, hy, rfl⟩ := hb
        have : (f (.static y)).2.map Node.id = y.nodes.keys := by
          simp only [f, List.map_map, OMap.keys]
          refine List.map_congr_left ?_
          rintro ⟨n, x⟩ hx
          obtain ⟨i, _, _, h3⟩ := hR.static_slot hy (OMap.mem_toList.1 hx)
          show x.id = n
          rw [h3]; rfl
        simp only [this]
        exact OMap.keys_nodup _
      | dyn l p =>
        simp only [Graph.layerAt?, Option.map_eq_some_iff] at hb
        obtain ⟨y, hy, rfl⟩ := hb
        exact List.nodup_nil
    · intro k k' b b' hb hb' n hn hn'
      obtain ⟨x, hx, rfl⟩ := List.mem_map.1 hn
      obtain ⟨x', hx', he⟩ := List.mem_map.1 hn'
      obtain ⟨_, i, _, h1, h2, _⟩ := hrec k b hb x hx
      obtain ⟨_, i', _, h1', h2', _⟩ := hrec k' b' hb' x' hx'
      rw [he, h1] at h1'
      cases h1'
      rw [← h2, h2']
  · intro x
    rw [← hv, g.mem_visit, hR.getLayerForNode, hR.findNode hw]
    constructor
    · rintro ⟨k, b, hb, hx⟩
      obtain ⟨l, i, rfl, h1, h2, h3⟩ := hrec k b hb x hx
      exact ⟨⟨l, by simp [Spec.key?, h1, h2]⟩, by rw [h1, Option.map_some, ← h3]⟩
    · rintro ⟨⟨l, h1⟩, h2⟩
      cases hn : σ.nodes.find? x.id with
      | none => simp [Spec.key?, hn] at h1
      | some i =>
        simp only [Spec.key?, hn, Option.map_some, Option.some.injEq] at h1
        simp only [hn, Option.map_some, Res.ok.injEq, Option.some.injEq] at h2
        have h3 : g.view.node i.key x.id = some (σ.mkNode x.id i) := by rw [RV.node hR]; simp [Spec.nodeRec, hn]
        obtain ⟨b, hb, hx⟩ := Graph.layerAt?_of_view_node h3
        refine ⟨i.key, b, hb, ?_⟩
        rw [h1, Graph.layerAt?, Option.map_eq_some_iff] at hb
        obtain ⟨y, hy, rfl⟩ := hb
        exact List.mem_map.2 ⟨(x.id, x), OMap.mem_toList.2 (by rw [← h2]; exact h2 ▸ hx), rfl⟩

/-- **C53, `graph.edges`.** Exactly the edges between nodes of static layers, each once, with the orientation and attributes `findEdge` gives. -/
theorem C53_graph_edges (h : Reached ids ops g) :
    ∃ L, Loop globalEdgeIter (setEdgeIter g.inter.edges.toList g.layers.toList) L .stop ∧ (L.map (fun e => EdgeKey.of e.source e.target)).Nodup ∧
      ∀ e, e ∈ L ↔ (∃ l l', g.getLayerForNode e.source = some (.static l) ∧ g.getLayerForNode e.target = some (.static l')) ∧
        ∃ a, e.info = some a ∧ g.edgeObs e.source e.target = some ⟨e.source, e.target, a⟩ := by
  obtain ⟨hR, hw⟩ := h.rep
  generalize (Spec.init ids).after ops = σ at hR hw
  refine ⟨_, loop_globalEdges _ _, ?_, ?_⟩
  · have h1 := hR.edges_nodup hw
    refine List.Nodup.sublist (List.Sublist.map _ ?_) h1
    unfold Graph.allEdges
    rw [List.append_assoc, List.append_assoc]
    exact List.Sublist.append (List.Sublist.refl _) ((List.sublist_append_left _ _).trans (List.sublist_append_right _ _))
  · intro e
    have hmem : e ∈ g.layers.toList.flatMap (fun e => e.2.edges.edges.toList.map Prod.snd) ++ g.inter.edges.toList.map Prod.snd ↔
        ∃ c k, (g.view.ec c).edges.find? k = some e ∧ ((∃ l, c = .within (.static l)) ∨ c = .across false) := by
      simp only [List.mem_append, List.mem_flatMap, List.mem_map, Prod.exists, exists_eq_right]
      constructor
      · rintro (⟨l, y, hl, k, hk⟩ | ⟨k, hk⟩)
        · refine ⟨.within (.static l), k, ?_, .inl ⟨l, rfl⟩⟩
          simpa [Graph.view, Graph.ecAt?, Graph.layerAt?, OMap.mem_toList.1 hl, BaseLayer.ec] using OMap.mem_toList.1 hk
        · exact ⟨.across false, k, OMap.mem_toList.1 hk, .inr rfl⟩
      · rintro ⟨c, k, hk, ⟨l, rfl⟩ | rfl⟩
        · left
          cases hl : g.layers.find? l with
          | none => simp [Graph.view, Graph.ecAt?, Graph.layerAt?, hl] at hk
          | some y => exact ⟨l, y, OMap.mem_toList.2 hl, k, OMap.mem_toList.2 (by simpa [Graph.view, Graph.ecAt?, Graph.layerAt?, hl, BaseLayer.ec] using hk)⟩
        · exact .inr ⟨k, OMap.mem_toList.2 hk⟩
    rw [hmem]
    have hplace : ∀ {s t : NodeId} {ks kt : LayerKey}, σ.key? s = some ks → σ.key? t = some kt →
        (((∃ l, place ks kt = .within (.static l)) ∨ place ks kt = .across false) ↔
        ∃ l l', σ.key? s = some (.static l) ∧ σ.key? t = some (.static l')) := by
      intro s t ks kt e1 e2
      rw [e1, e2]
      unfold place
      split
      · rename_i e; subst e
        constructor
        · rintro (⟨l, e⟩ | e)
          · cases e; exact ⟨l, l, rfl, rfl⟩
          · cases e
        · rintro ⟨l, l', e, -⟩; cases e; exact .inl ⟨l, rfl⟩
      · constructor
        · rintro (⟨l, e⟩ | e)
          · cases e
          · cases ks with
            | static l => cases kt with
              | static l' => exact ⟨l, l', rfl, rfl⟩
              | dyn l' p => cases e
            | dyn l p => cases e
        · rintro ⟨l, l', e, e'⟩; cases e; cases e'; exact .inr rfl
    rw [hR.getLayerForNode, hR.getLayerForNode, hR.edgeObs hw]
    have known : ∀ {s t : NodeId} {x : EdgeInfo}, σ.edges.find? (EdgeKey.of s t) = some x → x.src = s → x.tgt = t →
        ∃ ks kt, σ.key? s = some ks ∧ σ.key? t = some kt ∧ σ.placeOf (EdgeKey.of s t) = some (place ks kt) := by
      intro s t x hx e1 e2
      obtain ⟨-, -, h1, h2⟩ := hw.edge _ _ hx
      obtain ⟨i, hi⟩ := OMap.contains_eq_true.1 h1
      obtain ⟨j, hj⟩ := OMap.contains_eq_true.1 h2
      rw [e1] at hi; rw [e2] at hj
      exact ⟨i.key, j.key, Spec.key?_eq hi, Spec.key?_eq hj, Spec.placeOf_of (Spec.key?_eq hi) (Spec.key?_eq hj)⟩
    constructor
    · rintro ⟨c, k, hk, hc⟩
      obtain ⟨rfl, h2, h3, h4⟩ := hR.edge_rec hw hk
      obtain ⟨ks, kt, k1, k2, k3⟩ := known h2 rfl rfl
      rw [h4] at k3; cases k3
      refine ⟨(hplace k1 k2).1 hc, (Spec.edgeEntry e).attrs, by rw [h3]; rfl, ?_⟩
      unfold Spec.edge?
      rw [h2]
      rfl
    · rintro ⟨hl, a, ha, he⟩
      unfold Spec.edge? at he
      obtain ⟨ks, kt, k1, k2, k3⟩ := known he rfl rfl
      refine ⟨place ks kt, EdgeKey.of e.source e.target, ?_, (hplace k1 k2).2 hl⟩
      rw [(RV.ec hR _).edges]
      simp only [Spec.edgeRec, he, Option.bind_some, k3, if_true, Spec.mkEdge, ← ha]

/-- **C53, `graph.layers` and `graph.dynamic_layers`.** Each layer once. -/
theorem C53_layers (h : Reached ids ops g) :
    (∃ L, Loop (mapIter LayerId Layer) g.layers.toList L .stop ∧ (L.map Layer.id).Nodup ∧ ∀ l, l ∈ L.map Layer.id ↔ g.hasLayer l = true) ∧
    (∃ L, Loop dynLayerIter (setSubIter g.dyns.toList) L .stop ∧ (L.map (fun d => (d.id, d.pre))).Nodup ∧
      ∀ l p, (l, p) ∈ L.map (fun d => (d.id, d.pre)) ↔ g.hasDynLayer l p = true) := by
  obtain ⟨hR, hw⟩ := h.rep
  generalize (Spec.init ids).after ops = σ at hR hw
  have hs : ∀ l x, g.layers.find? l = some x → x.id = l := by
    intro l x hx
    exact RV.info hR (.static l) (BaseLayer.info (.static x)) (by simp [Graph.view, Graph.layerAt?, hx])
  have hd : ∀ l p d, g.dynLayer? l p = some d → d.id = l ∧ d.pre = p := by
    intro l p d hx
    have := RV.info hR (.dyn l p) (BaseLayer.info (.dyn d)) (by simp [Graph.view, Graph.layerAt?, hx])
    exact ⟨this.1, this.2.1⟩
  constructor
  · refine ⟨_, loop_map _, ?_, ?_⟩
    · have : (g.layers.toList.map Prod.snd).map Layer.id = g.layers.keys := by
        simp only [List.map_map, OMap.keys]
        exact List.map_congr_left (fun e he => hs e.1 e.2 (OMap.mem_toList.1 he))
      rw [this]; exact OMap.keys_nodup _
    · intro l
      simp only [List.map_map, List.mem_map, Function.comp, Prod.exists, Graph.hasLayer, OMap.contains_eq_true]
      constructor
      · rintro ⟨l', x, hx, rfl⟩
        exact ⟨x, by rw [hs _ _ (OMap.mem_toList.1 hx)]; exact OMap.mem_toList.1 hx⟩
      · rintro ⟨x, hx⟩
        exact ⟨l, x, OMap.mem_toList.2 hx, hs _ _ hx⟩
  · refine ⟨g.dynList, loop_dynLayers _, ?_, ?_⟩
    · let f : BaseLayer → BaseLayer × List (LayerId × Prefix) := fun b => (b, match b with | .static _ => [] | .dyn d => [(d.id, d.pre)])
      have hv : (g.visitLayers f).2 = g.dynList.map (fun d => (d.id, d.pre)) := by
        have h0 : ∀ L : List (LayerId × Layer), L.flatMap (fun _ => ([] : List (LayerId × Prefix))) = [] := by
          intro L; induction L <;> simp
        have h1 : ∀ L : List (Prefix × DynLayer), L.flatMap (fun e => [(e.2.id, e.2.pre)]) = (L.map Prod.snd).map (fun d => (d.id, d.pre)) := by
          intro L; induction L <;> simp_all
        simp only [f, Graph.visitLayers, Graph.dynList, List.map_flatMap, h1]
        rw [h0, List.nil_append]
      rw [← hv]
      refine g.nodup_visit _ ?_ ?_
      · intro k b _
        cases b with
        | static l => exact List.nodup_nil
        | dyn d => exact by simp [f]
      · have key : ∀ k b, g.layerAt? k = some b → ∀ x ∈ (f b).2, k = .dyn x.1 x.2 := by
          intro k b hb x hx
          cases k with
          | static l =>
            simp only [Graph.layerAt?, Option.map_eq_some_iff] at hb
            obtain ⟨y, hy, rfl⟩ := hb
            cases hx
          | dyn l p =>
            simp only [Graph.layerAt?, Option.map_eq_some_iff] at hb
            obtain ⟨y, hy, rfl⟩ := hb
            obtain ⟨e1, e2⟩ := hd l p y hy
            have hx : x = (y.id, y.pre) := by simpa [f] using hx
            rw [hx, e1, e2]
        intro k k' b b' hb hb' x hx hx'
        rw [key k b hb x hx, key k' b' hb' x hx']
    · intro l p
      simp only [Graph.dynList, List.mem_map, List.mem_flatMap, Prod.exists, exists_eq_right, Graph.hasDynLayer, Option.isSome_iff_exists]
      constructor
      · rintro ⟨d, ⟨l', m, hm, p', hp⟩, e⟩
        have hq : g.dynLayer? l' p' = some d := by simp [Graph.dynLayer?, OMap.mem_toList.1 hm, OMap.mem_toList.1 hp]
        obtain ⟨e1, e2⟩ := hd _ _ _ hq
        rw [e1, e2] at e; cases e
        exact ⟨d, hq⟩
      · rintro ⟨d, hq⟩
        obtain ⟨e1, e2⟩ := hd _ _ _ hq
        refine ⟨d, ?_, by rw [e1, e2]⟩
        simp only [Graph.dynLayer?, Option.bind_eq_some_iff] at hq
        obtain ⟨m, hm, hp⟩ := hq
        exact ⟨l, m, OMap.mem_toList.2 hm, p, OMap.mem_toList.2 hp⟩

/-- **C53, `layer.nodes` and `layer.edges`** (also of an isolated layer, and the edges of a dynamic layer): everything stored, in key order. -/
theorem C53_layer (l : Layer) (d : DynLayer) :
    Loop (mapIter NodeId Node) l.nodes.toList (l.nodes.toList.map Prod.snd) .stop ∧
    Loop (mapIter EdgeKey Edge) l.edges.edges.toList (l.edges.edges.toList.map Prod.snd) .stop ∧
    Loop (mapIter EdgeKey Edge) d.edges.edges.toList (d.edges.edges.toList.map Prod.snd) .stop :=
  ⟨loop_map _, loop_map _, loop_map _⟩

/-- **C53 fails for `dynamic_layer.nodes`.** Whatever the layer, iterating reads the element past the end of the vector: at once if there is
no node, else after all nodes have been delivered. No loop over the nodes of a dynamic layer ends properly. -/
theorem C53_dynamic_nodes_read_past_the_end (d : DynLayer) :
    (∀ s L, dynBegin d = .ok s → ¬ Loop dynNodeIter s L .stop) ∧
    ((dynBegin d = .ub ∧ d.nodes.filterMap id = []) ∨
      ∃ s, dynBegin d = .ok s ∧ Loop dynNodeIter s ((d.nodes.filterMap id).map some) .ub) := by
  refine ⟨?_, loop_dynNodes d.nodes⟩
  intro s L hs hl
  rcases loop_dynNodes d.nodes with ⟨h1, -⟩ | ⟨s', h1, h2⟩
  · rw [dynBegin, h1] at hs; cases hs
  · rw [dynBegin, h1] at hs; cases hs
    cases (hl.unique h2).2

namespace PyIter
open Sample

/-- The sample graph, whose `nodes` and `edges` leave out what belongs to trajectories. -/
example : ∃ L, Loop globalNodeIter (setNodeIter state.layers.toList) L .stop ∧ L.map Node.id ≠ [] := by
  obtain ⟨L, h1, -, -⟩ := C53_graph_nodes reached
  refine ⟨L, h1, ?_⟩
  rw [(h1.unique (loop_globalNodes _)).1]
  decide +kernel

/-- Python's `graph.nodes` and `graph.edges` leave out what belongs to trajectories: two nodes and an edge between them are invisible. -/
theorem C53_trajectories_left_out :
    ∃ g, Reached [2] [.emplaceDyn 2 pa 1 at0 true, .emplaceDyn 2 pa 2 at0 true] g ∧ g.numNodes false = 2 ∧ g.numEdges = 1 ∧
      Loop globalNodeIter (setNodeIter g.layers.toList) [] .stop ∧
      Loop globalEdgeIter (setEdgeIter g.inter.edges.toList g.layers.toList) [] .stop := by
  refine ⟨(match Graph.exec [2] [.emplaceDyn 2 pa 1 at0 true, .emplaceDyn 2 pa 2 at0 true] with | .ok r => r.1 | _ => { layerIds := [] }),
    ⟨by decide, by decide +kernel, ?_⟩, by decide +kernel, by decide +kernel, .stop (by decide +kernel), .stop (by decide +kernel)⟩
  cases h' : Graph.exec [2] [.emplaceDyn 2 pa 1 at0 true, .emplaceDyn 2 pa 2 at0 true] with
  | ok r => exact ⟨r.2, rfl⟩
  | throw e => have h : (match Graph.exec [2] [.emplaceDyn 2 pa 1 at0 true, .emplaceDyn 2 pa 2 at0 true] with | .ok _ => true | _ => false) = true := by decide +kernel
               rw [h'] at h; cases h
  | ub => have h : (match Graph.exec [2] [.emplaceDyn 2 pa 1 at0 true, .emplaceDyn 2 pa 2 at0 true] with | .ok _ => true | _ => false) = true := by decide +kernel
          rw [h'] at h; cases h

end PyIter
end Verif
