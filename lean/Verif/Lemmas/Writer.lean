import Verif.Lemmas.Sync
import Verif.Refine.Whole
/-! # What `writeGraph` enumerates -/

namespace Verif

theorem Wr.all_congr {α β : Type} {f : α → Wr} {g : β → Wr} (φ : α → β) (l : List α) (h : ∀ a ∈ l, f a = g (φ a)) :
    Wr.all f l = Wr.all g (l.map φ) := by
  induction l with
  | nil => rfl
  | cons a l ih =>
    simp only [Wr.all, List.map_cons]
    rw [h a List.mem_cons_self, ih (fun x hx => h x (List.mem_cons_of_mem _ hx))]

theorem Wr.dynArr_congr {α β : Type} {f : α → Wr} {g : β → Wr} (φ : α → β) (l : List α) (h : ∀ a ∈ l, f a = g (φ a)) :
    Wr.dynArr f l = Wr.dynArr g (l.map φ) := by
  unfold Wr.dynArr
  rw [Wr.all_congr φ l h]

variable {g : Graph} {σ : Spec}

/-- a node of a message, from a node record -/
def Spec.entry (σ : Spec) (x : Node) : NodeId × NodeInfo := (x.id, (σ.nodes.find? x.id).getD ⟨.static 0, none, .base {}⟩)
/-- an edge of a message, from an edge record -/
def Spec.edgeEntry (e : Edge) : EdgeInfo := ⟨e.source, e.target, e.info.getD {}⟩

theorem R.static_slot (h : R g σ) {l : LayerId} {y : Layer} (hl : g.layers.find? l = some y) {n : NodeId} {x : Node}
    (hx : y.nodes.find? n = some x) : ∃ i, σ.nodes.find? n = some i ∧ i.key = .static l ∧ x = σ.mkNode n i := by
  have hb : g.layerAt? (.static l) = some (.static y) := by simp [Graph.layerAt?, hl]
  have h1 : g.view.node (.static l) n = some x := by rw [Graph.view_node_of_layerAt? hb]; exact hx
  rw [RV.node h] at h1
  unfold Spec.nodeRec at h1
  obtain ⟨i, hi, h2⟩ := Option.bind_eq_some_iff.1 h1
  split at h2
  · rename_i hk
    cases h2
    exact ⟨i, hi, hk, rfl⟩
  · cases h2

theorem R.dyn_slot (h : R g σ) {l : LayerId} {p : Prefix} {d : DynLayer} (hl : g.dynLayer? l p = some d) (hlen : d.nodes.length < 2 ^ 32)
    {k : Nat} {x : Node} (hx : d.nodes[k]? = some (some x)) :
    d.pre = p ∧ ∃ i, σ.nodes.find? (p.makeId k) = some i ∧ i.key = .dyn l p ∧ x = σ.mkNode (p.makeId k) i := by
  have hb : g.layerAt? (.dyn l p) = some (.dyn d) := by simp [Graph.layerAt?, hl]
  have hpre : d.pre = p := by
    have := RV.info h (.dyn l p) (BaseLayer.info (.dyn d)) (by simp [Graph.view, hb])
    exact this.2.1
  refine ⟨hpre, ?_⟩
  have hk : k < d.nodes.length := by
    rcases Nat.lt_or_ge k d.nodes.length with h' | h'
    · exact h'
    · rw [List.getElem?_eq_none h'] at hx; cases hx
  have h1 : g.view.node (.dyn l p) (p.makeId k) = some x := by
    rw [Graph.view_node_of_layerAt? hb]
    simp [BaseLayer.nd, hpre, Prefix.isMatch_makeId p (show k < 2 ^ 32 by omega), Prefix.index_makeId p p (show k < 2 ^ 32 by omega), hx]
  rw [RV.node h] at h1
  unfold Spec.nodeRec at h1
  obtain ⟨i, hi, h2⟩ := Option.bind_eq_some_iff.1 h1
  split at h2
  · rename_i hk
    cases h2
    exact ⟨i, hi, hk, rfl⟩
  · cases h2

/-- the node records of a layer -/
def BaseLayer.recs : BaseLayer → List Node
  | .static l => l.nodes.toList.map Prod.snd
  | .dyn d => d.nodes.filterMap id

theorem R.recs_entry (h : R g σ) (hlen : ∀ d ∈ g.dynList, d.nodes.length < 2 ^ 32) {k : LayerKey} {b : BaseLayer} (hb : g.layerAt? k = some b)
    {x : Node} (hx : x ∈ b.recs) : ∃ i, σ.nodes.find? x.id = some i ∧ i.key = k ∧ x = σ.mkNode x.id i := by
  cases k with
  | static l =>
    simp only [Graph.layerAt?, Option.map_eq_some_iff] at hb
    obtain ⟨y, hy, rfl⟩ := hb
    simp only [BaseLayer.recs, List.mem_map] at hx
    obtain ⟨⟨n, x'⟩, hx, rfl⟩ := hx
    obtain ⟨i, h1, h2, h3⟩ := h.static_slot hy (OMap.mem_toList.1 hx)
    dsimp only
    rw [h3]
    exact ⟨i, h1, h2, rfl⟩
  | dyn l p =>
    simp only [Graph.layerAt?, Option.map_eq_some_iff] at hb
    obtain ⟨d, hd, rfl⟩ := hb
    have hmem : d ∈ g.dynList := by
      simp only [Graph.dynLayer?, Option.bind_eq_some_iff] at hd
      obtain ⟨m, hm, hd⟩ := hd
      simp only [Graph.dynList, List.mem_flatMap, List.mem_map]
      exact ⟨(l, m), OMap.mem_toList.2 hm, (p, d), OMap.mem_toList.2 hd, rfl⟩
    simp only [BaseLayer.recs, List.mem_filterMap, id_eq, exists_eq_right] at hx
    obtain ⟨j, hj⟩ := List.mem_iff_getElem?.1 hx
    obtain ⟨_, i, h1, h2, h3⟩ := h.dyn_slot hd (hlen d hmem) hj
    rw [h3]
    exact ⟨i, h1, h2, rfl⟩

theorem R.recs_nodup (h : R g σ) (hlen : ∀ d ∈ g.dynList, d.nodes.length < 2 ^ 32) {k : LayerKey} {b : BaseLayer} (hb : g.layerAt? k = some b) :
    (b.recs.map Node.id).Nodup := by
  cases k with
  | static l =>
    simp only [Graph.layerAt?, Option.map_eq_some_iff] at hb
    obtain ⟨y, hy, rfl⟩ := hb
    have : (BaseLayer.static y).recs.map Node.id = y.nodes.keys := by
      simp only [BaseLayer.recs, List.map_map, OMap.keys]
      refine List.map_congr_left ?_
      intro e he
      obtain ⟨i, _, _, h3⟩ := h.static_slot hy (OMap.mem_toList.1 (show (e.1, e.2) ∈ y.nodes.toList from he))
      simp [h3, Spec.mkNode]
    rw [this]
    exact y.nodes.keys_nodup
  | dyn l p =>
    simp only [Graph.layerAt?, Option.map_eq_some_iff] at hb
    obtain ⟨d, hd, rfl⟩ := hb
    have hmem : d ∈ g.dynList := by
      simp only [Graph.dynLayer?, Option.bind_eq_some_iff] at hd
      obtain ⟨m, hm, hd⟩ := hd
      simp only [Graph.dynList, List.mem_flatMap, List.mem_map]
      exact ⟨(l, m), OMap.mem_toList.2 hm, (p, d), OMap.mem_toList.2 hd, rfl⟩
    have hl := hlen d hmem
    have key : ∀ (L : List (Option Node)) (o : Nat), (∀ j x, L[j]? = some (some x) → x.id = p.makeId (o + j)) → o + L.length ≤ 2 ^ 32 →
        ((L.filterMap id).map Node.id).Nodup ∧ ∀ x ∈ L.filterMap id, ∃ j, o ≤ j ∧ j < o + L.length ∧ x.id = p.makeId j := by
      intro L
      induction L with
      | nil => intro o _ _; exact ⟨List.nodup_nil, by simp⟩
      | cons s L ih =>
        intro o h1 h2
        obtain ⟨i1, i2⟩ := ih (o + 1) (fun j x hx => by have := h1 (j + 1) x (by simpa using hx); rw [this]; congr 1; omega)
          (by simp only [List.length_cons] at h2; omega)
        have i2' : ∀ x ∈ L.filterMap id, ∃ j, o + 1 ≤ j ∧ j < o + 1 + L.length ∧ x.id = p.makeId j := i2
        cases s with
        | none =>
          simp only [List.filterMap_cons, id_eq]
          refine ⟨i1, fun x hx => ?_⟩
          obtain ⟨j, a, b, c⟩ := i2' x hx
          exact ⟨j, by omega, by simp only [List.length_cons]; omega, c⟩
        | some y =>
          have hy := h1 0 y (by simp)
          simp only [List.filterMap_cons, id_eq, List.map_cons, List.nodup_cons, List.mem_cons]
          refine ⟨⟨?_, i1⟩, ?_⟩
          · intro hm
            obtain ⟨x, hx, hxy⟩ := List.mem_map.1 hm
            obtain ⟨j, a, b, c⟩ := i2' x hx
            rw [c, hy] at hxy
            simp only [List.length_cons] at h2
            have := congrArg UInt64.toNat hxy
            rw [Prefix.makeId_toNat p (show j < 2 ^ 32 by omega), Prefix.makeId_toNat p (show o + 0 < 2 ^ 32 by omega)] at this
            omega
          · rintro x (rfl | hx)
            · exact ⟨o, Nat.le_refl _, by simp, by simpa using hy⟩
            · obtain ⟨j, a, b, c⟩ := i2' x hx
              exact ⟨j, by omega, by simp only [List.length_cons]; omega, c⟩
    refine (key d.nodes 0 ?_ (by omega)).1
    intro j x hj
    obtain ⟨_, i, _, _, h3⟩ := h.dyn_slot hd hl hj
    rw [h3]
    simp [Spec.mkNode]

/-- all dynamic node records -/
def Graph.dynNodes (g : Graph) : List Node := g.dynSlots.filterMap id

theorem Graph.recs_visit (g : Graph) :
    (g.visitLayers (fun b => (b, b.recs.map Node.id))).2 = (g.staticNodes ++ g.dynNodes).map Node.id := by
  simp only [Graph.visitLayers, Graph.staticNodes, Graph.dynNodes, Graph.dynSlots, Graph.dynList, List.map_append, List.map_flatMap,
    List.filterMap_flatMap, BaseLayer.recs, List.flatMap_assoc, List.flatMap_map]

theorem Graph.mem_recs (g : Graph) (x : Node) : x ∈ g.staticNodes ++ g.dynNodes ↔ ∃ k b, g.layerAt? k = some b ∧ x ∈ b.recs := by
  have : (g.visitLayers (fun b => (b, b.recs))).2 = g.staticNodes ++ g.dynNodes := by
    simp only [Graph.visitLayers, Graph.staticNodes, Graph.dynNodes, Graph.dynSlots, Graph.dynList,
      List.filterMap_flatMap, BaseLayer.recs, List.flatMap_assoc, List.flatMap_map]
  rw [← this]
  exact g.mem_visit (fun b => (b, b.recs)) x

theorem R.recs_ids_nodup (h : R g σ) (hlen : ∀ d ∈ g.dynList, d.nodes.length < 2 ^ 32) : ((g.staticNodes ++ g.dynNodes).map Node.id).Nodup := by
  rw [← g.recs_visit]
  apply Graph.nodup_visit
  · intro k b hb; exact h.recs_nodup hlen hb
  · intro k k' b b' hb hb' n hn hn'
    obtain ⟨x, hx, rfl⟩ := List.mem_map.1 hn
    obtain ⟨x', hx', he⟩ := List.mem_map.1 hn'
    obtain ⟨i, h1, h2, _⟩ := h.recs_entry hlen hb hx
    obtain ⟨i', h1', h2', _⟩ := h.recs_entry hlen hb' hx'
    rw [he, h1] at h1'
    cases h1'
    rw [← h2, h2']

theorem R.mem_nodes (h : R g σ) (hw : SWF σ) (hlen : ∀ d ∈ g.dynList, d.nodes.length < 2 ^ 32) (n : NodeId) (i : NodeInfo) :
    (n, i) ∈ (g.staticNodes ++ g.dynNodes).map σ.entry ↔ σ.nodes.find? n = some i := by
  rw [List.mem_map]
  constructor
  · rintro ⟨x, hx, he⟩
    obtain ⟨k, b, hb, hx⟩ := (g.mem_recs x).1 hx
    obtain ⟨j, h1, _, _⟩ := h.recs_entry hlen hb hx
    unfold Spec.entry at he
    rw [h1] at he
    cases he
    exact h1
  · intro hn
    refine ⟨σ.mkNode n i, ?_, by simp [Spec.entry, Spec.mkNode, hn]⟩
    rw [g.mem_recs]
    have h1 : g.view.node i.key n = some (σ.mkNode n i) := by
      rw [RV.node h]; simp [Spec.nodeRec, hn]
    obtain ⟨b, hb, hx⟩ := Graph.layerAt?_of_view_node h1
    refine ⟨i.key, b, hb, ?_⟩
    cases b with
    | static l =>
      simp only [BaseLayer.nd] at hx
      simp only [BaseLayer.recs, List.mem_map]
      exact ⟨(n, _), OMap.mem_toList.2 hx, rfl⟩
    | dyn d =>
      obtain ⟨_, hx⟩ := BaseLayer.nd_dyn_lt hx
      simp only [BaseLayer.recs, List.mem_filterMap, id_eq, exists_eq_right]
      exact List.mem_iff_getElem?.2 ⟨_, hx⟩

/-- an edge record as the specification sees it -/
theorem R.edge_rec (h : R g σ) (hw : SWF σ) {c : Place} {k : EdgeKey} {e : Edge} (he : (g.view.ec c).edges.find? k = some e) :
    k = EdgeKey.of e.source e.target ∧ σ.edges.find? k = some (Spec.edgeEntry e) ∧ e = Spec.mkEdge (Spec.edgeEntry e) ∧ σ.placeOf k = some c := by
  rw [(RV.ec h c).edges] at he
  unfold Spec.edgeRec at he
  obtain ⟨x, hx, h2⟩ := Option.bind_eq_some_iff.1 he
  split at h2
  · rename_i hp
    cases h2
    exact ⟨(hw.edge k x hx).1, hx, rfl, hp⟩
  · cases h2

/-- the edge records of a container -/
def EdgeContainer.recs (c : EdgeContainer) : List Edge := c.edges.toList.map Prod.snd

theorem Graph.allEdges_eq (g : Graph) :
    g.allEdges = (g.visitLayers (fun b => (b, b.ec.recs))).2 ++ g.inter.recs ++ g.dynInter.recs := by
  simp only [Graph.visitLayers, Graph.allEdges, Graph.dynList, EdgeContainer.recs, List.flatMap_assoc, List.flatMap_map, BaseLayer.ec]

theorem Graph.mem_allEdges (g : Graph) (e : Edge) : e ∈ g.allEdges ↔ ∃ c k, (g.view.ec c).edges.find? k = some e := by
  have hr : ∀ c : EdgeContainer, e ∈ c.recs ↔ ∃ k, c.edges.find? k = some e := by
    intro c
    simp only [EdgeContainer.recs, List.mem_map, Prod.exists, exists_eq_right]
    exact exists_congr fun k => OMap.mem_toList
  rw [g.allEdges_eq, List.mem_append, List.mem_append, g.mem_visit (fun b => (b, b.ec.recs)), hr, hr]
  constructor
  · rintro ((⟨k, b, hb, hx⟩ | ⟨k, hk⟩) | ⟨k, hk⟩)
    · obtain ⟨key, hk⟩ := (hr _).1 hx
      exact ⟨.within k, key, by simpa [Graph.view, Graph.ecAt?, hb] using hk⟩
    · exact ⟨.across false, k, hk⟩
    · exact ⟨.across true, k, hk⟩
  · rintro ⟨c, k, hk⟩
    cases c with
    | within key =>
      left; left
      cases hb : g.layerAt? key with
      | none => simp [Graph.view, Graph.ecAt?, hb] at hk
      | some b =>
        refine ⟨key, b, hb, (hr _).2 ⟨k, ?_⟩⟩
        simpa [Graph.view, Graph.ecAt?, hb] using hk
    | across d => cases d
                  · left; right; exact ⟨k, hk⟩
                  · right; exact ⟨k, hk⟩

theorem R.edges_nodup (h : R g σ) (hw : SWF σ) : (g.allEdges.map (fun e => EdgeKey.of e.source e.target)).Nodup := by
  have hwi : ∀ k b, g.layerAt? k = some b → g.view.ec (.within k) = b.ec := by
    intro k b hb; simp [Graph.view, Graph.ecAt?, hb]
  have key : ∀ c c' k, k ∈ (g.view.ec c).edges.keys → k ∈ (g.view.ec c').edges.keys → c = c' := by
    intro c c' k hx hx'
    obtain ⟨e, he⟩ := OMap.contains_eq_true.1 (OMap.mem_keys.1 hx)
    obtain ⟨e', he'⟩ := OMap.contains_eq_true.1 (OMap.mem_keys.1 hx')
    have h1 := (h.edge_rec hw he).2.2.2
    have h2 := (h.edge_rec hw he').2.2.2
    rw [h1] at h2
    exact Option.some.inj h2
  have hk : ∀ c, (g.view.ec c).recs.map (fun e => EdgeKey.of e.source e.target) = (g.view.ec c).edges.keys := by
    intro c
    simp only [EdgeContainer.recs, List.map_map, OMap.keys]
    refine List.map_congr_left ?_
    intro e he
    exact ((h.edge_rec hw (OMap.mem_toList.1 (show (e.1, e.2) ∈ _ from he))).1).symm
  have hv : ((g.visitLayers (fun b => (b, b.ec.recs))).2).map (fun e => EdgeKey.of e.source e.target) =
      (g.visitLayers (fun b => (b, b.ec.recs.map (fun e => EdgeKey.of e.source e.target)))).2 := by
    simp only [Graph.visitLayers, List.map_append, List.map_flatMap]
  rw [g.allEdges_eq, List.map_append, List.map_append, hv]
  have hi : g.inter.recs.map (fun e => EdgeKey.of e.source e.target) = (g.view.ec (.across false)).edges.keys := hk (.across false)
  have hd : g.dynInter.recs.map (fun e => EdgeKey.of e.source e.target) = (g.view.ec (.across true)).edges.keys := hk (.across true)
  rw [hi, hd]
  have hl : ∀ k b, g.layerAt? k = some b → b.ec.recs.map (fun e => EdgeKey.of e.source e.target) = (g.view.ec (.within k)).edges.keys := by
    intro k b hb
    rw [← hk, hwi k b hb]
  rw [List.nodup_append, List.nodup_append]
  refine ⟨⟨?_, OMap.keys_nodup _, ?_⟩, OMap.keys_nodup _, ?_⟩
  · apply Graph.nodup_visit
    · intro k b hb; simp only; rw [hl k b hb]; exact OMap.keys_nodup _
    · intro k k' b b' hb hb' x hx hx'
      simp only at hx hx'
      rw [hl k b hb] at hx
      rw [hl k' b' hb'] at hx'
      cases key _ _ x hx hx'
      rfl
  · intro x hx y hy e; subst e
    obtain ⟨k, b, hb, hx⟩ := (Graph.mem_visit _ _ _).1 hx
    simp only at hx
    rw [hl k b hb] at hx
    cases key _ _ x hx hy
  · intro x hx y hy e; subst e
    rcases List.mem_append.1 hx with hx | hx
    · obtain ⟨k, b, hb, hx⟩ := (Graph.mem_visit _ _ _).1 hx
      simp only at hx
      rw [hl k b hb] at hx
      cases key _ _ x hx hy
    · cases key _ _ x hx hy

/-- What the writer enumerates. -/
theorem R.writer (h : R g σ) (hw : SWF σ) (hlen : ∀ d ∈ g.dynList, d.nodes.length < 2 ^ 32) (hnull : ∀ s ∈ g.dynSlots, s ≠ none) :
    ∃ A D Es, (∀ F W V incl, g.writeAs F W V incl = Wr.seq (Wr.vec Wr.u64 g.layerIds) (Rd.body F W V A D Es (if incl then g.mesh else none))) ∧
      ((A ++ D).map Prod.fst).Nodup ∧ (∀ n i, (n, i) ∈ A ++ D ↔ σ.nodes.find? n = some i) ∧
      (Es.map Spec.ekey).Nodup ∧ (∀ e, e ∈ Es ↔ σ.edges.find? (Spec.ekey e) = some e) := by
  refine ⟨g.staticNodes.map σ.entry, g.dynNodes.map σ.entry, g.allEdges.map Spec.edgeEntry, ?_, ?_, ?_, ?_, ?_⟩
  · intro F W V incl
    have hnode : ∀ x ∈ g.staticNodes ++ g.dynNodes, Wr.nodeAs F W (some x) = Wr.nodeAs F W (some (Rd.recOf (σ.entry x))) := by
      intro x hx
      obtain ⟨k, b, hb, hx⟩ := (g.mem_recs x).1 hx
      obtain ⟨i, h1, _, h3⟩ := h.recs_entry hlen hb hx
      have : σ.entry x = (x.id, i) := by unfold Spec.entry; rw [h1]; rfl
      rw [this, h3]
      rfl
    have h1 : Wr.dynArr (Wr.nodeAs F W) (g.staticNodes.map some) = Wr.dynArr (Wr.nodeAs F W) ((g.staticNodes.map σ.entry).map (fun e => some (Rd.recOf e))) := by
      rw [List.map_map, ← Wr.dynArr_congr (f := fun x => Wr.nodeAs F W (some x)) some g.staticNodes (fun _ _ => rfl)]
      exact Wr.dynArr_congr _ _ (fun x hx => hnode x (List.mem_append_left _ hx))
    have hs : g.dynSlots = g.dynNodes.map some := by
      unfold Graph.dynNodes
      have : ∀ L : List (Option Node), (∀ s ∈ L, s ≠ none) → L = (L.filterMap id).map some := by
        intro L
        induction L with
        | nil => intro _; rfl
        | cons s L ih =>
          intro hh
          cases s with
          | none => exact absurd rfl (hh none List.mem_cons_self)
          | some y =>
            simp only [List.filterMap_cons, id_eq, List.map_cons]
            rw [← ih (fun s hs => hh s (List.mem_cons_of_mem _ hs))]
      exact this _ hnull
    have h2 : Wr.dynArr (Wr.nodeAs F W) g.dynSlots = Wr.dynArr (Wr.nodeAs F W) ((g.dynNodes.map σ.entry).map (fun e => some (Rd.recOf e))) := by
      rw [hs, List.map_map, ← Wr.dynArr_congr (f := fun x => Wr.nodeAs F W (some x)) some g.dynNodes (fun _ _ => rfl)]
      exact Wr.dynArr_congr _ _ (fun x hx => hnode x (List.mem_append_right _ hx))
    have h3 : g.allEdges = (g.allEdges.map Spec.edgeEntry).map Spec.mkEdge := by
      rw [List.map_map]
      refine (List.map_id g.allEdges).symm.trans (List.map_congr_left ?_)
      intro e he
      obtain ⟨c, k, hk⟩ := (g.mem_allEdges e).1 he
      exact (h.edge_rec hw hk).2.2.1
    unfold Graph.writeAs Rd.body
    rw [h1, h2, ← h3]
    cases (if incl = true then g.mesh else none) <;> rfl
  · have : (g.staticNodes.map σ.entry ++ g.dynNodes.map σ.entry).map Prod.fst = (g.staticNodes ++ g.dynNodes).map Node.id := by
      simp only [← List.map_append, List.map_map]
      rfl
    rw [this]
    exact h.recs_ids_nodup hlen
  · intro n i
    rw [← List.map_append]
    exact h.mem_nodes hw hlen n i
  · rw [List.map_map]
    exact h.edges_nodup hw
  · intro e
    rw [List.mem_map]
    constructor
    · rintro ⟨x, hx, rfl⟩
      obtain ⟨c, k, hk⟩ := (g.mem_allEdges x).1 hx
      obtain ⟨h1, h2, _, _⟩ := h.edge_rec hw hk
      rw [show Spec.ekey (Spec.edgeEntry x) = k from h1.symm]
      exact h2
    · intro he
      refine ⟨Spec.mkEdge e, (g.mem_allEdges _).2 ?_, rfl⟩
      obtain ⟨c, hc⟩ := Option.isSome_iff_exists.1 (Spec.placeOf_some hw (OMap.contains_eq_true.2 ⟨e, he⟩))
      refine ⟨c, Spec.ekey e, ?_⟩
      rw [(RV.ec h c).edges]
      simp [Spec.edgeRec, he, hc]

end Verif
