import Verif.Refine.DynOps
/-!
# Refinement: edge lookup and attribute updates, `addOrUpdateNode`, parent edges
-/

namespace Verif

section
variable {g : Graph} {σ : Spec}

/-- Running `f` on the container selected by two keys. -/
theorem Graph.findEdgeIn_ok {g : Graph} {s t : NodeId} {ks kt : LayerKey} {b : BaseLayer} (hb : g.layerAt? ks = some b) :
    ∃ g', g.findEdgeIn s t ks kt = .ok (g', ((g.view.ec (place ks kt)).find s t).2) ∧
      g'.view = g.view.setE (place ks kt) ((g.view.ec (place ks kt)).find s t).1 := by
  unfold Graph.findEdgeIn place
  by_cases e : ks = kt
  · subst e
    have hec : g.view.ec (.within ks) = b.ec := by simp [Graph.view, Graph.ecAt?, hb]
    simp only [if_true, Graph.layerFromKey_eq hb, Res.bind_ok, hec]
    refine ⟨_, rfl, ?_⟩
    rw [Graph.view_setLayer (by simpa using Graph.fits_of_layerAt? hb), Graph.setL_setEc hb]
  · simp only [e, if_false]
    cases hd : (ks.dynamic || kt.dynamic) with
    | true => exact ⟨_, by simp [Graph.view, Graph.ecAt?], Graph.view_dynInter _ _⟩
    | false => exact ⟨_, by simp [Graph.view, Graph.ecAt?], Graph.view_inter _ _⟩

theorem Graph.setInfoIn_ok {g : Graph} {s t : NodeId} {ks kt : LayerKey} {b : BaseLayer} (hb : g.layerAt? ks = some b)
    (info : Option EdgeAttrs) :
    ∃ g', g.setInfoIn s t ks kt info = .ok g' ∧
      g'.view = g.view.setE (place ks kt) ((g.view.ec (place ks kt)).setInfo (EdgeKey.of s t) info) := by
  unfold Graph.setInfoIn place
  by_cases e : ks = kt
  · subst e
    have hec : g.view.ec (.within ks) = b.ec := by simp [Graph.view, Graph.ecAt?, hb]
    simp only [if_true, Graph.layerFromKey_eq hb, Res.bind_ok, hec]
    refine ⟨_, rfl, ?_⟩
    rw [Graph.view_setLayer (by simpa using Graph.fits_of_layerAt? hb), Graph.setL_setEc hb]
  · simp only [e, if_false]
    cases hd : (ks.dynamic || kt.dynamic) with
    | true => exact ⟨_, by simp; rfl, Graph.view_dynInter _ _⟩
    | false => exact ⟨_, by simp; rfl, Graph.view_inter _ _⟩

theorem RV.find_res {v : View} (h : RV v σ) {s t : NodeId} {ks kt : LayerKey} (hs : σ.key? s = some ks)
    (ht : σ.key? t = some kt) : ((v.ec (place ks kt)).find s t).2 = (σ.edge? s t).map Spec.mkEdge := by
  simp only [EdgeContainer.find, EdgeContainer.findKey, Spec.edge?]
  cases he : σ.edges.find? (EdgeKey.of s t) with
  | none => rw [RV.edge_none h (OMap.contains_eq_false.2 he)]; rfl
  | some e => rw [RV.edge_some h hs ht he]; rfl

theorem R.findEdge (h : R g σ) (hw : SWF σ) {s t : NodeId} {ks kt : LayerKey} (hs : σ.key? s = some ks)
    (ht : σ.key? t = some kt) (gone : NodeStatus) :
    ∃ g', g.findEdge s t = .ok (g', ((σ.findEdge s t).2).map Spec.mkEdge) ∧ Adv gone g.view g'.view (σ.findEdge s t).1 := by
  obtain ⟨b, hb⟩ := h.layerAt? hw hs
  obtain ⟨g', e, v⟩ := Graph.findEdgeIn_ok (s := s) (t := t) (kt := kt) hb
  refine ⟨g', ?_, ?_⟩
  · simp [Graph.findEdge, h.lookup', hs, ht, e, RV.find_res h hs ht, Spec.findEdge]
  · rw [v]; exact adv_touch h hs ht gone

/-- The known weakness of `findEdge`: unknown nodes raise an exception. -/
theorem R.findEdge_missing (h : R g σ) {s t : NodeId} (hn : σ.key? s = none ∨ σ.key? t = none) :
    g.findEdge s t = .throw .outOfRange := by
  simp only [Graph.findEdge, h.lookup']
  rcases hn with hn | hn
  · simp [hn]
  · cases σ.key? s <;> simp [hn]

theorem SWF.touch (hw : SWF σ) (k : EdgeKey) : SWF (σ.touch k) := by
  obtain ⟨h1, h2, h3, h4, h5⟩ := Spec.touch_fields σ k
  refine hw.congr h3 h2 h1 ?_ ?_
  · intro key c hm
    rw [Spec.find?_marks_touch] at hm
    split at hm
    · cases hm
    · exact hm
  · intro key e he; rw [h4] at he; exact ⟨e, he, rfl, rfl⟩

theorem R.setEdgeAttributes (h : R g σ) (hw : SWF σ) {s t : NodeId} {ks kt : LayerKey} (hs : σ.key? s = some ks)
    (ht : σ.key? t = some kt) (a : EdgeAttrs) (gone : NodeStatus) :
    ∃ g', g.setEdgeAttributes s t (some a) = .ok (g', (σ.setEdgeAttrs s t a).2) ∧
      Adv gone g.view g'.view (σ.setEdgeAttrs s t a).1 := by
  obtain ⟨b, hb⟩ := h.layerAt? hw hs
  obtain ⟨g1, e1, v1⟩ := Graph.findEdgeIn_ok (s := s) (t := t) (kt := kt) hb
  have A1 : Adv gone g.view g1.view (σ.touch (EdgeKey.of s t)) := by rw [v1]; exact adv_touch h hs ht gone
  rw [RV.find_res h hs ht] at e1
  obtain ⟨t1, t2, t3, t4, t5⟩ := Spec.touch_fields σ (EdgeKey.of s t)
  simp only [Graph.setEdgeAttributes, h.lookup', hs, ht, Res.at?_some, Res.bind_ok, e1]
  cases he : σ.edge? s t with
  | none =>
    have he' : σ.edges.find? (EdgeKey.of s t) = none := he
    have : σ.touch (EdgeKey.of s t) = σ := by simp [Spec.touch, OMap.contains, he']
    rw [this] at A1
    exact ⟨g1, by simp [Spec.setEdgeAttrs, he], by simpa [Spec.setEdgeAttrs, he] using A1⟩
  | some e =>
    have hk : ∀ n, (σ.touch (EdgeKey.of s t)).key? n = σ.key? n := fun n => by simp [Spec.key?, t3]
    have hs1 : (σ.touch (EdgeKey.of s t)).key? s = some ks := by rw [hk, hs]
    have ht1 : (σ.touch (EdgeKey.of s t)).key? t = some kt := by rw [hk, ht]
    have he1 : (σ.touch (EdgeKey.of s t)).edges.find? (EdgeKey.of s t) = some e := by rw [t4]; exact he
    obtain ⟨b1, hb1⟩ := R.layerAt? (g := g1) A1.r (hw.touch _) hs1
    obtain ⟨g2, e2, v2⟩ := Graph.setInfoIn_ok (s := s) (t := t) (kt := kt) hb1 (some a)
    refine ⟨g2, by simp [Spec.setEdgeAttrs, he, e2], ?_⟩
    have A2 := adv_setInfo A1.r hs1 ht1 he1 a gone
    rw [← v2] at A2
    have := Adv.trans h A1 A2 hk (fun _ => rfl) (fun key => .inl (by rw [t4]))
    simpa only [Spec.setEdgeAttrs, he, t4] using this

theorem SWF.setEdgeAttrs (hw : SWF σ) (s t : NodeId) (a : EdgeAttrs) : SWF (σ.setEdgeAttrs s t a).1 := by
  simp only [Spec.setEdgeAttrs]
  split
  · exact hw
  · rename_i e he
    obtain ⟨h1, h2, h3, h4, h5⟩ := Spec.touch_fields σ (EdgeKey.of s t)
    refine (hw.touch (EdgeKey.of s t)).congr rfl rfl rfl (fun _ _ h => h) ?_
    intro key e' h
    simp only [OMap.find?_insert] at h
    rw [h4]
    split at h
    · rename_i e1; subst e1; cases h; exact ⟨e, he, rfl, rfl⟩
    · exact ⟨e', h, rfl, rfl⟩

theorem R.hasEdge (h : R g σ) (hw : SWF σ) (s t : NodeId) : g.hasEdge s t = .ok (σ.hasEdge s t) := by
  unfold Graph.hasEdge
  cases hs : σ.key? s with
  | none => simp [h.hasEdgeKeys_none (.inl hs), (hw.no_hasEdge hs t).1]
  | some ks =>
    cases ht : σ.key? t with
    | none => simp [h.hasEdgeKeys_none (.inr ht), (hw.no_hasEdge ht s).2]
    | some kt => simp [h.hasEdgeKeys hw hs ht]

theorem R.addOrUpdateEdge (h : R g σ) (hw : SWF σ) (s t : NodeId) (info : Option EdgeAttrs)
    (hi : σ.hasEdge s t = true → info.isSome = true) (gone : NodeStatus) :
    ∃ g', g.addOrUpdateEdge s t info = .ok (g', (σ.addOrUpdateEdge s t info).2) ∧
      Adv gone g.view g'.view (σ.addOrUpdateEdge s t info).1 := by
  simp only [Graph.addOrUpdateEdge, h.hasEdge hw, Res.bind_ok, Spec.addOrUpdateEdge]
  cases he : σ.hasEdge s t with
  | false => simpa using h.insertEdge hw s t info gone
  | true =>
    obtain ⟨a, rfl⟩ := Option.isSome_iff_exists.1 (hi he)
    obtain ⟨-, hs, ht⟩ := hw.hasEdge_nodes he
    rw [Spec.contains_of_key?] at hs ht
    obtain ⟨ks, hs⟩ := Option.isSome_iff_exists.1 hs
    obtain ⟨kt, ht⟩ := Option.isSome_iff_exists.1 ht
    simpa using h.setEdgeAttributes hw hs ht a gone

theorem SWF.addOrUpdateEdge (hw : SWF σ) (s t : NodeId) (info : Option EdgeAttrs) : SWF (σ.addOrUpdateEdge s t info).1 := by
  simp only [Spec.addOrUpdateEdge]
  split
  · exact hw.setEdgeAttrs _ _ _
  · exact hw.insertEdge _ _ _

/-! ## `addOrUpdateNode` -/

theorem R.addOrUpdateNode_known (h : R g σ) (hw : SWF σ) (l : LayerId) (n : NodeId) (a : NodeAttrs) (stamp : Option Stamp)
    (hn : stamp = none ∨ σ.nodes.contains n = true ∨ σ.layerIds.contains l = false) (gone : NodeStatus) :
    ∃ g', g.addOrUpdateNode l n (some a) stamp = .ok (g', (σ.addOrUpdateNode l n a stamp).2) ∧
      Adv gone g.view g'.view (σ.addOrUpdateNode l n a stamp).1 := by
  have hl := h.static_layer l
  simp only [Graph.addOrUpdateNode, Spec.addOrUpdateNode, h.lookup']
  cases hx : g.layers.find? l with
  | none =>
    rw [hx] at hl
    simp only [← hl, Option.isSome_none, Bool.not_false, if_true]
    exact ⟨g, rfl, Adv.refl gone h⟩
  | some x =>
    rw [hx] at hl
    simp only [← hl, Option.isSome_some, Bool.not_true, Bool.false_eq_true, if_false]
    cases hk : σ.key? n with
    | some k =>
      have hc : σ.nodes.contains n = true := by rw [Spec.contains_of_key?, hk]; rfl
      obtain ⟨g', e, A⟩ := h.setNodeAttributes hw n a gone
      refine ⟨g', ?_, by simpa [hc] using A⟩
      simp only [Graph.setNodeAttributes, h.lookup', hk] at e
      simpa [hc] using e
    | none =>
      have hc : σ.nodes.contains n = false := by rw [Spec.contains_of_key?, hk]; rfl
      rcases hn with rfl | hn | hn
      · obtain ⟨g', e, A⟩ := h.emplaceNode hw l n a gone
        refine ⟨g', ?_, by simpa [hc] using A⟩
        simp only [Graph.emplaceNode, OMap.contains, h.lookup', hk, hx, Option.isSome_none, Bool.false_eq_true, if_false] at e
        simp only [hc, Bool.false_eq_true, if_false]
        rw [← e]
        split <;> rfl
      · rw [hc] at hn; cases hn
      · rw [← hl] at hn; cases hn

theorem R.addOrUpdateNode_prev (h : R g σ) {l : LayerId} {n : NodeId} (a : Option NodeAttrs) (t : Stamp)
    (hl : σ.layerIds.contains l = true) (hn : σ.nodes.contains n = false) :
    g.addOrUpdateNode l n a (some t) = g.emplacePrev l n t a := by
  have hx := h.static_layer l
  rw [hl] at hx
  obtain ⟨x, hx⟩ := Option.isSome_iff_exists.1 hx
  have hk : σ.key? n = none := by
    rw [Spec.contains_of_key?] at hn; simpa using hn
  simp [Graph.addOrUpdateNode, hx, h.lookup', hk]

/-! ## Parent edges -/

theorem Spec.mem_parents {n m : NodeId} {k : LayerKey} :
    m ∈ (σ.parents n k).keys ↔ ∃ k', σ.key? m = some k' ∧ k.layer < k'.layer ∧ σ.hasEdge n m = true := by
  rw [OMap.mem_keys, Spec.parents, Spec.contains_nbrs]
  cases σ.key? m <;> simp

theorem Spec.mem_children {n m : NodeId} {k : LayerKey} :
    m ∈ (σ.children n k).keys ↔ ∃ k', σ.key? m = some k' ∧ k'.layer < k.layer ∧ σ.hasEdge n m = true := by
  rw [OMap.mem_keys, Spec.children, Spec.contains_nbrs]
  cases σ.key? m <;> simp

theorem Spec.mem_siblings {n m : NodeId} {k : LayerKey} :
    m ∈ (σ.siblings n k).keys ↔ ∃ k', σ.key? m = some k' ∧ k'.layer = k.layer ∧ σ.hasEdge n m = true := by
  rw [OMap.mem_keys, Spec.siblings, Spec.contains_nbrs]
  cases σ.key? m <;> simp

theorem pairwise_of_keys (n : NodeId) {L : List NodeId} (hL : L.Nodup) :
    L.Pairwise (fun a b => EdgeKey.of n a ≠ EdgeKey.of n b) := by
  refine List.Pairwise.imp ?_ hL
  intro a b hab e
  rcases EdgeKey.of_inj.1 e with ⟨_, e⟩ | ⟨e1, e2⟩
  · exact hab e
  · exact hab (e2.trans e1)

theorem EdgeKey.other_of_left (a b : NodeId) : (EdgeKey.of a b).other a = b := by
  rcases EdgeKey.of_eq a b with ⟨e, _⟩ | ⟨e, _⟩ <;> rw [e] <;> simp only [EdgeKey.other]
  · simp
  · split
    · rename_i h; exact h.symm
    · rfl

/-- The keys `{n, m}` with `m` in a list. -/
theorem any_key {L : List NodeId} {n : NodeId} {key : EdgeKey} (hkey : key = EdgeKey.of key.k1 key.k2) :
    (L.any (fun m => EdgeKey.of n m == key)) = (key.has n && L.contains (key.other n)) := by
  rw [Bool.eq_iff_iff]
  simp only [List.any_eq_true, beq_iff_eq, Bool.and_eq_true, List.contains_iff_mem]
  constructor
  · rintro ⟨m, hm, rfl⟩
    exact ⟨EdgeKey.has_of_left n m, by rw [EdgeKey.other_of_left]; exact hm⟩
  · rintro ⟨h1, h2⟩
    exact ⟨_, h2, (EdgeKey.exists_of key hkey n h1).symm⟩

theorem SWF.key_of (hw : SWF σ) {key : EdgeKey} {e : EdgeInfo} (he : σ.edges.find? key = some e) :
    key = EdgeKey.of key.k1 key.k2 := by
  rw [(hw.edge key e he).1, EdgeKey.of_k1_k2]

/-- Dropping the edges to the listed neighbours. -/
theorem SWF.drop_eq (hw : SWF σ) {L : List NodeId} {n : NodeId} {P : EdgeKey → Bool}
    (hP : ∀ m, σ.hasEdge n m = true → P (EdgeKey.of n m) = L.contains m)
    (hP' : ∀ key, σ.edges.contains key = true → key.has n = false → P key = false) :
    σ.dropEdges (fun key => L.any (fun m => EdgeKey.of n m == key)) = σ.dropEdges P := by
  apply Spec.ext' <;> try rfl
  apply OMap.ext; intro key
  simp only [Spec.find?_dropEdges]
  cases he : σ.edges.find? key with
  | none => simp
  | some e =>
    have hkey := hw.key_of he
    rw [any_key hkey]
    cases hh : key.has n with
    | false => rw [hP' key (by simp [OMap.contains, he]) hh]; simp
    | true =>
      have e1 := EdgeKey.exists_of key hkey n hh
      have : σ.hasEdge n (key.other n) = true := by simp [Spec.hasEdge, ← e1, OMap.contains, he]
      have := hP _ this
      rw [← e1] at this
      rw [this]; simp

theorem R.dropParents (h : R g σ) (hw : SWF σ) {c : NodeId} {i : NodeInfo} (hc : σ.nodes.find? c = some i) (gone : NodeStatus) :
    ∃ g', foldRes (fun g q => g.removeEdge c q >>= fun r => .ok r.1) g (σ.parents c i.key).keys = .ok g' ∧
      Adv gone g.view g'.view (σ.dropParents c) := by
  obtain ⟨g', e, A⟩ := fold_erase (fun g q => g.removeEdge c q >>= fun r => .ok r.1) (fun q => EdgeKey.of c q) gone
    (σ0 := σ) (σ.parents c i.key).keys (pairwise_of_keys c (OMap.keys_nodup _)) (by
      intro g1 σ1 q hq h1 hw1 hn1 he1
      obtain ⟨g2, e2, A2⟩ := R.removeEdge h1 hw1 c q gone
      refine ⟨g2, by simp [e2], ?_⟩
      obtain ⟨k', -, -, hE⟩ := Spec.mem_parents.1 hq
      have hE1 : σ1.hasEdge c q = true := by
        simp only [Spec.hasEdge, OMap.contains] at hE ⊢; rw [he1]; exact hE
      simpa [Spec.removeEdge, hE1] using A2) g h hw
  refine ⟨g', e, ?_⟩
  have : σ.dropParents c = σ.dropEdges (fun key => σ.isParentEdge c key) := rfl
  rw [this, ← hw.drop_eq (L := (σ.parents c i.key).keys) (n := c)]
  · exact A
  · intro m hm
    rw [Bool.eq_iff_iff, List.contains_iff_mem, Spec.mem_parents]
    simp only [Spec.isParentEdge, EdgeKey.has_of_left, EdgeKey.other_of_left, Spec.key?_eq hc, Bool.true_and]
    cases σ.key? m <;> simp [hm]
  · intro key _ hh
    simp [Spec.isParentEdge, hh]

theorem SWF.dropParents (hw : SWF σ) (c : NodeId) : SWF (σ.dropParents c) := hw.dropEdges (fun k => σ.isParentEdge c k)

theorem R.insertParentEdge (h : R g σ) (hw : SWF σ) (s t : NodeId) (info : Option EdgeAttrs)
    (hsafe : σ.key? s = none ∨ σ.key? s ≠ σ.key? t ∨ σ.hasEdge s t = true) (gone : NodeStatus) :
    ∃ g', g.insertParentEdge s t info = .ok (g', (σ.insertParentEdge s t info).2) ∧
      Adv gone g.view g'.view (σ.insertParentEdge s t info).1 := by
  have hrefl : Adv gone g.view g.view σ := Adv.refl gone h
  cases hs : σ.nodes.find? s with
  | none =>
    have hk : σ.key? s = none := by simp [Spec.key?, hs]
    refine ⟨g, ?_, ?_⟩
    · simp [Graph.insertParentEdge, h.hasEdgeKeys_none (.inl hk), LayerKey.unknown, LayerKey.valid, LayerKey.layer,
        Spec.insertParentEdge, hk]
    · simpa [Spec.insertParentEdge, hk] using hrefl
  | some i =>
  have hks := Spec.key?_eq hs
  cases ht : σ.nodes.find? t with
  | none =>
    have hk : σ.key? t = none := by simp [Spec.key?, ht]
    refine ⟨g, ?_, ?_⟩
    · simp [Graph.insertParentEdge, h.hasEdgeKeys_none (.inr hk), LayerKey.unknown, LayerKey.valid, LayerKey.layer,
        Spec.insertParentEdge, hk, hks]
    · simpa [Spec.insertParentEdge, hk, hks] using hrefl
  | some j =>
  have hkt := Spec.key?_eq ht
  cases he : σ.hasEdge s t with
  | true =>
    refine ⟨g, ?_, ?_⟩
    · simp [Graph.insertParentEdge, h.hasEdgeKeys hw hks hkt, he, Spec.insertParentEdge, hks, hkt]
    · simpa [Spec.insertParentEdge, hks, hkt, he] using hrefl
  | false =>
    have hne : i.key ≠ j.key := by
      rcases hsafe with h1 | h1 | h1
      · rw [hks] at h1; cases h1
      · rw [hks, hkt] at h1; exact fun e => h1 (by rw [e])
      · rw [he] at h1; cases h1
    have hnest : s ≠ t := by intro e; subst e; rw [hs] at ht; cases ht; exact hne rfl
    have hv1 := hw.valid hks
    have hv2 := hw.valid hkt
    -- the child
    have hdrop : ∃ g1, g.dropAllParents s t i.key j.key = .ok g1 ∧
        Adv gone g.view g1.view (σ.dropParents (if j.key.layer < i.key.layer then t else s)) := by
      simp only [Graph.dropAllParents, Graph.getNodePtr_ok (RV.node_of h hs) (h.kok hw hks),
        Graph.getNodePtr_ok (RV.node_of h ht) (h.kok hw hkt), Res.bind_ok, LayerKey.isParent, decide_eq_true_eq]
      by_cases hp : j.key.layer < i.key.layer
      · simp only [hp, if_true, Res.deref_some, Res.bind_ok]
        exact h.dropParents hw ht gone
      · simp only [hp, if_false, Res.deref_some, Res.bind_ok]
        exact h.dropParents hw hs gone
    obtain ⟨g1, e1, A1⟩ := hdrop
    generalize hσ1 : σ.dropParents (if j.key.layer < i.key.layer then t else s) = σ1 at A1
    have hn1 : σ1.nodes = σ.nodes := by rw [← hσ1]; rfl
    have hw1 : SWF σ1 := by rw [← hσ1]; exact hw.dropParents _
    have hsub : ∀ key, σ1.edges.contains key = true → σ.edges.contains key = true := by
      intro key hk
      rw [← hσ1] at hk
      have : σ.dropParents (if j.key.layer < i.key.layer then t else s) = σ.dropEdges (fun k => σ.isParentEdge _ k) := rfl
      rw [this, Spec.contains_dropEdges] at hk
      simp only [Bool.and_eq_true] at hk; exact hk.1
    have he1 : σ1.hasEdge s t = false := by
      cases hh : σ1.hasEdge s t with
      | false => rfl
      | true => have := hsub _ hh; rw [show σ.edges.contains (EdgeKey.of s t) = false from he] at this; cases this
    obtain ⟨g2, e2, A2⟩ := R.inter_insert (g := g1) A1.r hw1 (by rw [hn1]; exact hs) (by rw [hn1]; exact ht) hne he1 (info.getD {}) gone
    have hsp : σ.insertParentEdge s t info = (σ1.addEdge s t (info.getD {}), true) := by
      simp [Spec.insertParentEdge, hks, hkt, he, hσ1]
    refine ⟨g2.insertInterlayer s t i.key j.key (some (info.getD {})), ?_, ?_⟩
    · simp [Graph.insertParentEdge, h.hasEdgeKeys hw hks hkt, he, hv1, hv2, hne, e1, e2, hsp]
    · rw [hsp]
      refine Adv.trans h A1 A2 (fun n => by simp [Spec.key?, hn1]) (fun _ => rfl) ?_
      intro key
      by_cases ek : EdgeKey.of s t = key
      · subst ek; left
        rw [show σ1.edges.contains (EdgeKey.of s t) = false from he1, show σ.edges.contains (EdgeKey.of s t) = false from he]
      · right
        simp [Spec.addEdge, OMap.contains_insert, ek]

theorem SWF.insertParentEdge (hw : SWF σ) (s t : NodeId) (info : Option EdgeAttrs)
    (hsafe : σ.key? s = none ∨ σ.key? s ≠ σ.key? t ∨ σ.hasEdge s t = true) : SWF (σ.insertParentEdge s t info).1 := by
  simp only [Spec.insertParentEdge]
  cases hks : σ.key? s with
  | none => exact hw
  | some ks =>
    cases hkt : σ.key? t with
    | none => exact hw
    | some kt =>
      simp only
      split
      · exact hw
      · rename_i he
        refine (hw.dropParents _).addEdge ?_ ?_ ?_ _
        · show σ.nodes.contains s = true; rw [Spec.contains_of_key?, hks]; rfl
        · show σ.nodes.contains t = true; rw [Spec.contains_of_key?, hkt]; rfl
        · intro e; subst e
          rcases hsafe with h1 | h1 | h1
          · rw [hks] at h1; cases h1
          · exact h1 rfl
          · exact he h1

end
end Verif
