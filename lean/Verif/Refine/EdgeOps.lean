import Verif.Refine.EdgeSpec
/-!
# `insertEdge`, `removeEdge` and the interlayer helpers refine their specifications
-/

namespace Verif

theorem NLog.refl (gone : NodeStatus) (v : View) : NLog gone v v := by intro k n; simp
theorem ELog.refl (v : View) : ELog v v := by intro k n; simp
theorem Adv.refl {v : View} {σ : Spec} (gone : NodeStatus) (h : RV v σ) : Adv gone v v σ :=
  ⟨h, .refl _ _, .refl _⟩

namespace BaseLayer
/-- The status table and the node store agree. -/
def Live (b : BaseLayer) : Prop := ∀ n, NodeStatus.live (b.nst n) = (b.nd n).isSome

theorem hasNode_eq {b : BaseLayer} (h : b.Live) (n : NodeId) : b.hasNode n = (b.nd n).isSome := by
  cases b with
  | static l => rfl
  | dyn d =>
    rw [← h n]
    simp only [hasNode, DynLayer.hasNode, DynLayer.hasNodeByIndex, nst]
    by_cases hm : d.pre.isMatch n = true
    · simp only [hm, if_true, Bool.not_true, Bool.false_eq_true, if_false]
      cases hs : d.status.find? (d.pre.index n) with
      | none => rfl
      | some s => cases s <;> rfl
    · simp [hm, NodeStatus.live]

/-- add a sibling -/
def addSib (m : NodeId) (x : Node) : Node := { x with siblings := x.siblings.add m }
/-- remove a sibling -/
def delSib (m : NodeId) (x : Node) : Node := { x with siblings := x.siblings.erase m }

theorem modNode_eq {l : Layer} {n : NodeId} {x : Node} (h : (static l).nd n = some x) (f : Node → Node) :
    ∃ l', l.modNode n f = .ok l' ∧ static l' = (static l).setNode n (f x) := by
  simp only [nd] at h
  exact ⟨_, by simp only [Layer.modNode, h], rfl⟩

theorem modIdx_eq {d : DynLayer} {n : NodeId} {x : Node} (h : (dyn d).nd n = some x) (f : Node → Node) :
    ∃ d', d.modIdx (d.pre.index n) f = .ok d' ∧ dyn d' = (dyn d).setNode n (f x) ∧ d'.pre = d.pre := by
  obtain ⟨hm, hi⟩ := nd_dyn_lt h
  exact ⟨_, by simp only [DynLayer.modIdx, DynLayer.slot, hi, Res.bind_ok, Res.deref_some, Res.pure_eq], rfl, rfl⟩

theorem insertEdge_ok {b : BaseLayer} (hl : b.Live) {s t : NodeId} {x y : Node} (hs : b.nd s = some x)
    (ht : b.nd t = some y) (hne : s ≠ t) (he : b.ec.contains s t = false) (info : Option EdgeAttrs) :
    b.insertEdge s t info =
      .ok (((b.setNode s (addSib t x)).setNode t (addSib s y)).setEc (b.ec.insert s t info), true) := by
  have h1 := hasNode_eq hl s
  have h2 := hasNode_eq hl t
  have ht' := fun z => (nd_setNode hs z t).trans (by simp [hne, ht] : _ = some y)
  rw [hs] at h1; rw [ht] at h2
  cases b with
  | static l =>
    simp only [hasNode] at h1 h2
    obtain ⟨l1, e1, e1'⟩ := modNode_eq hs (fun x => { x with siblings := x.siblings.add t })
    obtain ⟨l2, e2, e2'⟩ := modNode_eq (l := l1) (n := t) (x := y) (by rw [e1']; exact ht' _) (fun x => { x with siblings := x.siblings.add s })
    simp only [ec] at he
    have he' : l2.edges = l.edges := by
      have : (static l2).ec = (static l).ec := by rw [e2', e1']; simp
      exact this
    simp only [insertEdge, Layer.insertEdge, hne, if_false, Layer.hasEdge, he, h1, h2]
    simp only [Bool.false_eq_true, if_false, Option.isSome_some, Bool.not_true, e1, e2, Res.bind_ok, Res.pure_eq]
    simp only [addSib, Res.ok.injEq, Prod.mk.injEq, and_true]
    rw [← e1', ← e2', he']; rfl
  | dyn d =>
    simp only [hasNode] at h1 h2
    obtain ⟨l1, e1, e1', p1⟩ := modIdx_eq hs (fun x => { x with siblings := x.siblings.add t })
    obtain ⟨l2, e2, e2', p2⟩ := modIdx_eq (d := l1) (n := t) (x := y) (by rw [e1']; exact ht' _) (fun x => { x with siblings := x.siblings.add s })
    simp only [ec] at he
    have he' : l2.edges = d.edges := by
      have : (dyn l2).ec = (dyn d).ec := by rw [e2', e1']; simp
      exact this
    simp only [insertEdge, DynLayer.insertEdge, hne, if_false, DynLayer.hasEdge, he, h1, h2]
    simp only [Bool.false_eq_true, if_false, Option.isSome_some, Bool.not_true, Bool.or_false, e1, e2, Res.bind_ok, Res.pure_eq]
    simp only [addSib, Res.ok.injEq, Prod.mk.injEq, and_true]
    rw [← e1', ← e2', he']; rfl

theorem removeEdge_ok {b : BaseLayer} {s t : NodeId} {x y : Node} (hs : b.nd s = some x)
    (ht : b.nd t = some y) (hne : s ≠ t) (he : b.ec.contains s t = true) {z : EdgeStatus}
    (hz : b.ec.status.find? (EdgeKey.of s t) = some z) :
    b.removeEdge s t =
      .ok (((b.setNode s (delSib t x)).setNode t (delSib s y)).setEc (b.ec.drop (EdgeKey.of s t)), true) := by
  have ht' := fun z => (nd_setNode hs z t).trans (by simp [hne, ht] : _ = some y)
  cases b with
  | static l =>
    obtain ⟨l1, e1, e1'⟩ := modNode_eq hs (fun x => { x with siblings := x.siblings.erase t })
    obtain ⟨l2, e2, e2'⟩ := modNode_eq (l := l1) (n := t) (x := y) (by rw [e1']; exact ht' _) (fun x => { x with siblings := x.siblings.erase s })
    simp only [ec] at he hz
    have he' : l2.edges = l.edges := by
      have : (static l2).ec = (static l).ec := by rw [e2', e1']; simp
      exact this
    simp only [removeEdge, Layer.removeEdge, Layer.hasEdge, he]
    simp only [Bool.not_true, Bool.false_eq_true, if_false, e1, e2, Res.bind_ok, Res.pure_eq, he',
      EdgeContainer.remove_ok hz]
    simp only [delSib, Res.ok.injEq, Prod.mk.injEq, and_true]
    rw [← e1', ← e2']; rfl
  | dyn d =>
    obtain ⟨l1, e1, e1', p1⟩ := modIdx_eq hs (fun x => { x with siblings := x.siblings.erase t })
    obtain ⟨l2, e2, e2', p2⟩ := modIdx_eq (d := l1) (n := t) (x := y) (by rw [e1']; exact ht' _) (fun x => { x with siblings := x.siblings.erase s })
    simp only [ec] at he hz
    have he' : l2.edges = d.edges := by
      have : (dyn l2).ec = (dyn d).ec := by rw [e2', e1']; simp
      exact this
    simp only [removeEdge, DynLayer.removeEdge, DynLayer.hasEdge, he]
    simp only [Bool.not_true, Bool.false_eq_true, if_false, e1, e2, Res.bind_ok, Res.pure_eq, he',
      EdgeContainer.remove_ok hz]
    simp only [delSib, Res.ok.injEq, Prod.mk.injEq, and_true]
    rw [← e1', ← e2']; rfl

theorem insertEdge_self (b : BaseLayer) (s : NodeId) (info : Option EdgeAttrs) : b.insertEdge s s info = .ok (b, false) := by
  cases b <;> simp [insertEdge, Layer.insertEdge, DynLayer.insertEdge]

theorem insertEdge_has {b : BaseLayer} {s t : NodeId} (h : b.ec.contains s t = true) (info : Option EdgeAttrs) :
    b.insertEdge s t info = .ok (b, false) := by
  cases b <;> simp only [ec] at h <;> simp [insertEdge, Layer.insertEdge, DynLayer.insertEdge, Layer.hasEdge, DynLayer.hasEdge, h]

theorem insertEdge_missing {b : BaseLayer} (hl : b.Live) {s t : NodeId} (h : b.nd s = none ∨ b.nd t = none)
    (info : Option EdgeAttrs) : b.insertEdge s t info = .ok (b, false) := by
  have h1 := hasNode_eq hl s
  have h2 := hasNode_eq hl t
  by_cases hne : s = t
  · subst hne; exact insertEdge_self _ _ _
  by_cases he : b.ec.contains s t = true
  · exact insertEdge_has he _
  · cases b with
    | static l =>
      simp only [hasNode, ec] at h1 h2 he
      rcases h with h | h <;> simp only [h] at h1 h2 <;>
        simp [insertEdge, Layer.insertEdge, Layer.hasEdge, hne, he, h1, h2]
    | dyn d =>
      simp only [hasNode, ec] at h1 h2 he
      rcases h with h | h <;> simp only [h] at h1 h2 <;>
        simp [insertEdge, DynLayer.insertEdge, DynLayer.hasEdge, hne, he, h1, h2]
end BaseLayer

namespace Graph
theorem view_inter (g : Graph) (c : EdgeContainer) : { g with inter := c }.view = g.view.setE (.across false) c := by
  simp only [view, View.setE, View.mk.injEq, true_and]
  refine ⟨rfl, rfl, ?_, rfl⟩
  funext c'
  cases c' with
  | within k => simp [ecAt?]; rfl
  | across d => cases d <;> simp [ecAt?]
theorem view_dynInter (g : Graph) (c : EdgeContainer) : { g with dynInter := c }.view = g.view.setE (.across true) c := by
  simp only [view, View.setE, View.mk.injEq, true_and]
  refine ⟨rfl, rfl, ?_, rfl⟩
  funext c'
  cases c' with
  | within k => simp [ecAt?]; rfl
  | across d => cases d <;> simp [ecAt?]
end Graph

/-! ## Facts available from the relation -/

section
variable {g : Graph} {σ : Spec}

theorem R.layerAt? (h : R g σ) (hw : SWF σ) {n : NodeId} {k : LayerKey} (hn : σ.key? n = some k) :
    ∃ b, g.layerAt? k = some b := by
  obtain ⟨i, hi, rfl⟩ := Spec.exists_of_key? hn
  have h1 := h.has i.key
  rw [(hw.node n i hi).1] at h1
  simp only [Graph.view, Option.isSome_map, Option.isSome_iff_exists] at h1
  exact h1

theorem R.blive (h : R g σ) {k : LayerKey} {b : BaseLayer} (hb : g.layerAt? k = some b) : b.Live := by
  intro n
  have := RV.live h k n
  simpa [Graph.view, hb] using this

theorem R.kok (h : R g σ) (hw : SWF σ) {n : NodeId} {k : LayerKey} (hn : σ.key? n = some k) : g.view.KOk k := by
  cases k with
  | static l => trivial
  | dyn l p =>
    obtain ⟨i, hi, hk⟩ := Spec.exists_of_key? hn
    refine ⟨(hw.dyn n i l p hi hk).1, ?_⟩
    intro m hm
    exact (h.info _ m hm).2.1

theorem SWF.valid (hw : SWF σ) {n : NodeId} {k : LayerKey} (hn : σ.key? n = some k) : k.valid = true := by
  obtain ⟨i, hi, rfl⟩ := Spec.exists_of_key? hn
  exact (hw.node n i hi).2

theorem SWF.hasEdge_nodes (hw : SWF σ) {a b : NodeId} (h : σ.hasEdge a b = true) :
    a ≠ b ∧ σ.nodes.contains a = true ∧ σ.nodes.contains b = true := by
  obtain ⟨e, he⟩ := OMap.contains_eq_true.1 h
  obtain ⟨h1, h2, h3, h4⟩ := hw.edge _ _ he
  rcases EdgeKey.of_inj.1 h1 with ⟨rfl, rfl⟩ | ⟨rfl, rfl⟩
  · exact ⟨h2, h3, h4⟩
  · exact ⟨Ne.symm h2, h4, h3⟩

theorem SWF.hasEdge_self (hw : SWF σ) (a : NodeId) : σ.hasEdge a a = false := by
  cases h : σ.hasEdge a a with
  | false => rfl
  | true => exact absurd rfl (hw.hasEdge_nodes h).1

theorem R.lookup' (h : R g σ) (n : NodeId) : g.lookup.find? n = σ.key? n := h.lookup n

theorem R.ecWithin (h : R g σ) {k : LayerKey} {b : BaseLayer} (hb : g.layerAt? k = some b) : g.view.ec (.within k) = b.ec := by
  simp [Graph.view, Graph.ecAt?, hb]

/-- `hasEdge` with keys. -/
theorem R.hasEdgeKeys (h : R g σ) (hw : SWF σ) {s t : NodeId} {ks kt : LayerKey} (hs : σ.key? s = some ks)
    (ht : σ.key? t = some kt) : g.hasEdgeKeys s t = .ok (σ.hasEdge s t, ks, kt) := by
  have hc := RV.contains_eq h hs ht
  simp only [Graph.hasEdgeKeys, h.lookup', hs, ht]
  by_cases e : ks = kt
  · subst e
    obtain ⟨b, hb⟩ := h.layerAt? hw hs
    simp only [place, if_true, h.ecWithin hb] at hc
    simp [Graph.layerFromKey_eq hb, hc]
  · simp only [place, e, if_false] at hc
    by_cases ed : ks.dynamic || kt.dynamic
    · simp only [ed, Graph.view, Graph.ecAt?, Option.getD_some] at hc
      simp [e, ed, hc]
    · simp only [ed, Graph.view, Graph.ecAt?, Option.getD_some] at hc
      simp [e, ed, hc]

theorem R.hasEdgeKeys_none (h : R g σ) {s t : NodeId} (hn : σ.key? s = none ∨ σ.key? t = none) :
    g.hasEdgeKeys s t = .ok (false, .unknown, .unknown) := by
  simp only [Graph.hasEdgeKeys, h.lookup']
  rcases hn with hn | hn
  · simp [hn]
  · cases hs : σ.key? s <;> simp [hn]

theorem Node.link_lt {x : Node} {k k' : LayerKey} {m : NodeId} (h : k'.layer < k.layer) :
    x.link k k' m = { x with children := x.children.add m } := by simp [link, h]
theorem Node.link_gt {x : Node} {k k' : LayerKey} {m : NodeId} (h : k.layer < k'.layer) (h' : ¬ k'.layer < k.layer) :
    x.link k k' m = { x with parents := x.parents.add m } := by simp [link, h, h']
theorem Node.link_eq {x : Node} {k k' : LayerKey} {m : NodeId} (h : ¬ k.layer < k'.layer) (h' : ¬ k'.layer < k.layer) :
    x.link k k' m = { x with siblings := x.siblings.add m } := by simp [link, h, h']
theorem Node.unlink_lt {x : Node} {k k' : LayerKey} {m : NodeId} (h : k'.layer < k.layer) :
    x.unlink k k' m = { x with children := x.children.erase m } := by simp [unlink, h]
theorem Node.unlink_gt {x : Node} {k k' : LayerKey} {m : NodeId} (h : k.layer < k'.layer) (h' : ¬ k'.layer < k.layer) :
    x.unlink k k' m = { x with parents := x.parents.erase m } := by simp [unlink, h, h']
theorem Node.unlink_eq {x : Node} {k k' : LayerKey} {m : NodeId} (h : ¬ k.layer < k'.layer) (h' : ¬ k'.layer < k.layer) :
    x.unlink k k' m = { x with siblings := x.siblings.erase m } := by simp [unlink, h, h']

/-- Writing two different nodes. -/
theorem Graph.modNode2_ok {g : Graph} {s t : NodeId} {ks kt : LayerKey} {x y : Node} (hs : g.view.node ks s = some x)
    (ht : g.view.node kt t = some y) (hne : s ≠ t) (ks_ok : g.view.KOk ks) (kt_ok : g.view.KOk kt) (f f' : Node → Node) :
    ∃ g', (g.modNode s ks f >>= fun g => g.modNode t kt f') = .ok g' ∧
      g'.view = (g.view.setN ks s (f x)).setN kt t (f' y) := by
  obtain ⟨g1, e1, v1⟩ := Graph.modNode_ok hs ks_ok f
  have ht1 : g1.view.node kt t = some y := by rw [v1]; simp [View.setN, hne, ht]
  have hk1 : g1.view.KOk kt := by rw [v1]; exact kt_ok
  obtain ⟨g2, e2, v2⟩ := Graph.modNode_ok ht1 hk1 f'
  exact ⟨g2, by simp [e1, e2], by rw [v2, v1]⟩

theorem Graph.addAncestry_ok {g : Graph} {s t : NodeId} {ks kt : LayerKey} {x y : Node} (hs : g.view.node ks s = some x)
    (ht : g.view.node kt t = some y) (hne : s ≠ t) (ks_ok : g.view.KOk ks) (kt_ok : g.view.KOk kt) :
    ∃ g', g.addAncestry s t ks kt = .ok g' ∧
      g'.view = (g.view.setN ks s (x.link ks kt t)).setN kt t (y.link kt ks s) := by
  have p1 := Graph.getNodePtr_ok hs ks_ok
  have p2 := Graph.getNodePtr_ok ht kt_ok
  simp only [Graph.addAncestry, p1, p2, Res.bind_ok, LayerKey.isParent, decide_eq_true_eq]
  rcases layer_cases kt.layer ks.layer with ⟨h1, h2, h3⟩ | ⟨h1, h2, h3⟩ | ⟨h1, h2, h3⟩
  · simp only [if_pos h1, Node.link_lt h1, Node.link_gt h1 h2]
    exact Graph.modNode2_ok hs ht hne ks_ok kt_ok _ _
  · simp only [if_neg h2, if_pos h1, Node.link_lt h1, Node.link_gt h1 h2]
    obtain ⟨g', e, v⟩ := Graph.modNode2_ok ht hs (Ne.symm hne) kt_ok ks_ok
      (fun x => { x with children := x.children.add s }) (fun x => { x with parents := x.parents.add t })
    exact ⟨g', e, by rw [v, View.setN_comm _ _ hne]⟩
  · simp only [if_neg h2, if_neg h3, Node.link_eq h2 h3, Node.link_eq h3 h2]
    exact Graph.modNode2_ok hs ht hne ks_ok kt_ok _ _

theorem Graph.removeAncestry_ok {g : Graph} {s t : NodeId} {ks kt : LayerKey} {x y : Node} (hs : g.view.node ks s = some x)
    (ht : g.view.node kt t = some y) (hne : s ≠ t) (ks_ok : g.view.KOk ks) (kt_ok : g.view.KOk kt) :
    ∃ g', g.removeAncestry s t ks kt = .ok g' ∧
      g'.view = (g.view.setN ks s (x.unlink ks kt t)).setN kt t (y.unlink kt ks s) := by
  have p1 := Graph.getNodePtr_ok hs ks_ok
  have p2 := Graph.getNodePtr_ok ht kt_ok
  simp only [Graph.removeAncestry, p1, p2, Res.bind_ok, LayerKey.isParent, decide_eq_true_eq]
  rcases layer_cases kt.layer ks.layer with ⟨h1, h2, h3⟩ | ⟨h1, h2, h3⟩ | ⟨h1, h2, h3⟩
  · simp only [if_pos h1, Node.unlink_lt h1, Node.unlink_gt h1 h2]
    exact Graph.modNode2_ok hs ht hne ks_ok kt_ok _ _
  · simp only [if_neg h2, if_pos h1, Node.unlink_lt h1, Node.unlink_gt h1 h2]
    obtain ⟨g', e, v⟩ := Graph.modNode2_ok ht hs (Ne.symm hne) kt_ok ks_ok
      (fun x => { x with children := x.children.erase s }) (fun x => { x with parents := x.parents.erase t })
    exact ⟨g', e, by rw [v, View.setN_comm _ _ hne]⟩
  · simp only [if_neg h2, if_neg h3, Node.unlink_eq h2 h3, Node.unlink_eq h3 h2]
    exact Graph.modNode2_ok hs ht hne ks_ok kt_ok _ _

theorem Graph.view_insertInterlayer {g : Graph} {s t : NodeId} {ks kt : LayerKey} (hne : ks ≠ kt) (a : Option EdgeAttrs) :
    (g.insertInterlayer s t ks kt a).view =
      g.view.setE (place ks kt) ((g.view.ec (place ks kt)).insert s t a) := by
  simp only [Graph.insertInterlayer, place, hne, if_false]
  by_cases ed : ks.dynamic || kt.dynamic
  · simp only [ed, if_true, Graph.view_dynInter]; rfl
  · simp only [ed, Bool.false_eq_true, if_false, Graph.view_inter]; rfl

theorem lt_irrefl_layer (k : LayerKey) : ¬ k.layer < k.layer := by simp


theorem Graph.view_two {g : Graph} {k : LayerKey} {b : BaseLayer} (hb : g.layerAt? k = some b) {s t : NodeId} {x y : Node}
    (hs : b.nd s = some x) (ht : b.nd t = some y) (hne : s ≠ t) (x' y' : Node) (c : EdgeContainer) :
    (g.setLayer k (((b.setNode s x').setNode t y').setEc c)).view =
      ((g.view.setN k s x').setN k t y').setE (.within k) c := by
  have hf := Graph.fits_of_layerAt? hb
  have f1 : (b.setNode s x').fits k := by simpa using hf
  have f2 : ((b.setNode s x').setNode t y').fits k := by simpa using hf
  have f3 : (((b.setNode s x').setNode t y').setEc c).fits k := by simpa using hf
  have l1 : (g.setLayer k (b.setNode s x')).layerAt? k = some (b.setNode s x') := by
    rw [Graph.layerAt?_setLayer' f1]; simp
  have l2 : ((g.setLayer k (b.setNode s x')).setLayer k ((b.setNode s x').setNode t y')).layerAt? k =
      some ((b.setNode s x').setNode t y') := by rw [Graph.layerAt?_setLayer' f2]; simp
  have ht' : (b.setNode s x').nd t = some y := by rw [BaseLayer.nd_setNode hs]; simp [hne, ht]
  rw [← Graph.setLayer_setLayer (g := g) f2 f3, ← Graph.setLayer_setLayer (g := g) f1 f2,
    Graph.view_setLayer f3, Graph.setL_setEc l2, Graph.view_setLayer f2, Graph.setL_setNode l1 ht',
    Graph.view_setLayer f1, Graph.setL_setNode hb hs]

/-- The layer-level `insertEdge`, at the graph level. -/
theorem R.layer_insert (h : R g σ) {s t : NodeId} {i j : NodeInfo} (hs : σ.nodes.find? s = some i)
    (ht : σ.nodes.find? t = some j) (hk : i.key = j.key) (hne : s ≠ t) (he : σ.hasEdge s t = false)
    {b : BaseLayer} (hb : g.layerAt? i.key = some b) (info : Option EdgeAttrs) (gone : NodeStatus) :
    ∃ b', b.insertEdge s t info = .ok (b', true) ∧ b'.fits i.key ∧
      Adv gone g.view (g.setLayer i.key b').view (σ.addEdge s t (info.getD {})) := by
  have hs' : b.nd s = some (σ.mkNode s i) := by rw [← Graph.view_node_of_layerAt? hb]; exact RV.node_of h hs
  have ht' : b.nd t = some (σ.mkNode t j) := by
    rw [← Graph.view_node_of_layerAt? hb, hk]; exact RV.node_of h ht
  have hc := RV.contains_eq h (Spec.key?_eq hs) (Spec.key?_eq ht)
  simp only [place, hk, if_true] at hc
  rw [h.ecWithin (hk ▸ hb), he] at hc
  refine ⟨_, BaseLayer.insertEdge_ok (h.blive hb) hs' ht' hne hc info, ?_, ?_⟩
  · simpa using Graph.fits_of_layerAt? hb
  · have := adv_addEdge h hs ht hne he (info.getD {}) gone
    rw [Graph.view_two hb hs' ht' hne]
    simp only [View.addE, ← hk, Node.link_eq (lt_irrefl_layer i.key) (lt_irrefl_layer i.key), place, if_true,
      h.ecWithin hb] at this
    exact this

/-- The layer-level `removeEdge`, at the graph level. -/
theorem R.layer_remove (h : R g σ) {s t : NodeId} {i j : NodeInfo} (hs : σ.nodes.find? s = some i)
    (ht : σ.nodes.find? t = some j) (hk : i.key = j.key) (hne : s ≠ t) (he : σ.hasEdge s t = true)
    {b : BaseLayer} (hb : g.layerAt? i.key = some b) (gone : NodeStatus) :
    ∃ b', b.removeEdge s t = .ok (b', true) ∧ b'.fits i.key ∧
      Adv gone g.view (g.setLayer i.key b').view (σ.eraseEdge (EdgeKey.of s t)) := by
  have hs' : b.nd s = some (σ.mkNode s i) := by rw [← Graph.view_node_of_layerAt? hb]; exact RV.node_of h hs
  have ht' : b.nd t = some (σ.mkNode t j) := by
    rw [← Graph.view_node_of_layerAt? hb, hk]; exact RV.node_of h ht
  have hc := RV.contains_eq h (Spec.key?_eq hs) (Spec.key?_eq ht)
  have hst := (h.ec (.within i.key)).status (EdgeKey.of s t)
  simp only [place, hk, if_true] at hc
  rw [h.ecWithin (hk ▸ hb), he] at hc
  rw [h.ecWithin hb] at hst
  have hz : ∃ z, b.ec.status.find? (EdgeKey.of s t) = some z := by
    have hc' : (b.ec.edges.find? (EdgeKey.of s t)).isSome = true := hc
    rw [hc'] at hst
    cases hh : b.ec.status.find? (EdgeKey.of s t) with
    | none => rw [hh] at hst; cases hst
    | some z => exact ⟨z, rfl⟩
  obtain ⟨z, hz⟩ := hz
  refine ⟨_, BaseLayer.removeEdge_ok hs' ht' hne hc hz, ?_, ?_⟩
  · simpa using Graph.fits_of_layerAt? hb
  · have := adv_eraseEdge h hs ht hne he gone
    rw [Graph.view_two hb hs' ht' hne]
    simp only [View.delE, ← hk, Node.unlink_eq (lt_irrefl_layer i.key) (lt_irrefl_layer i.key), place, if_true,
      h.ecWithin hb] at this
    exact this

/-- An interlayer insertion. -/
theorem R.inter_insert (h : R g σ) (hw : SWF σ) {s t : NodeId} {i j : NodeInfo} (hs : σ.nodes.find? s = some i)
    (ht : σ.nodes.find? t = some j) (hk : i.key ≠ j.key) (he : σ.hasEdge s t = false) (a : EdgeAttrs) (gone : NodeStatus) :
    ∃ g', g.addAncestry s t i.key j.key = .ok g' ∧
      Adv gone g.view (g'.insertInterlayer s t i.key j.key (some a)).view (σ.addEdge s t a) := by
  have hne : s ≠ t := by intro e; subst e; rw [hs] at ht; cases ht; exact hk rfl
  obtain ⟨g', e, v⟩ := Graph.addAncestry_ok (RV.node_of h hs) (RV.node_of h ht) hne (h.kok hw (Spec.key?_eq hs))
    (h.kok hw (Spec.key?_eq ht))
  refine ⟨g', e, ?_⟩
  rw [Graph.view_insertInterlayer hk, v]
  exact adv_addEdge h hs ht hne he a gone

theorem Adv.status_some {v : View} (h : RV v σ) {s t : NodeId} {ks kt : LayerKey} (hs : σ.key? s = some ks)
    (ht : σ.key? t = some kt) (he : σ.hasEdge s t = true) :
    ∃ z, (v.ec (place ks kt)).status.find? (EdgeKey.of s t) = some z := by
  have hc := RV.contains_eq h hs ht
  have hst := (h.ec (place ks kt)).status (EdgeKey.of s t)
  rw [he] at hc
  have hc' : ((v.ec (place ks kt)).edges.find? (EdgeKey.of s t)).isSome = true := hc
  rw [hc'] at hst
  cases hh : (v.ec (place ks kt)).status.find? (EdgeKey.of s t) with
  | none => rw [hh] at hst; cases hst
  | some z => exact ⟨z, rfl⟩

/-- An interlayer removal. -/
theorem R.inter_remove (h : R g σ) (hw : SWF σ) {s t : NodeId} {i j : NodeInfo} (hs : σ.nodes.find? s = some i)
    (ht : σ.nodes.find? t = some j) (hk : i.key ≠ j.key) (he : σ.hasEdge s t = true) (gone : NodeStatus) :
    ∃ g', g.removeInterlayerEdge s t i.key j.key = .ok g' ∧
      Adv gone g.view g'.view (σ.eraseEdge (EdgeKey.of s t)) := by
  have hne : s ≠ t := by intro e; subst e; rw [hs] at ht; cases ht; exact hk rfl
  obtain ⟨g', e, v⟩ := Graph.removeAncestry_ok (RV.node_of h hs) (RV.node_of h ht) hne (h.kok hw (Spec.key?_eq hs))
    (h.kok hw (Spec.key?_eq ht))
  obtain ⟨z, hz⟩ := Adv.status_some h (Spec.key?_eq hs) (Spec.key?_eq ht) he
  have hec : g'.view.ec = g.view.ec := by rw [v]; rfl
  rw [← hec] at hz
  have hA := adv_eraseEdge h hs ht hne he gone
  simp only [Graph.removeInterlayerEdge, e, Res.bind_ok]
  have hec' : g'.view.ec (place i.key j.key) = g.view.ec (place i.key j.key) := by rw [hec]
  simp only [place, hk, if_false] at hz hec'
  by_cases ed : i.key.dynamic || j.key.dynamic
  · rw [ed] at hz hec'
    have hd : g'.view.ec (.across true) = g'.dynInter := rfl
    rw [hd] at hz hec'
    refine ⟨{ g' with dynInter := g'.dynInter.drop (EdgeKey.of s t) }, ?_, ?_⟩
    · simp [ed, EdgeContainer.remove_ok hz]
    · rw [Graph.view_dynInter g', v, hec']
      simpa only [View.delE, place, hk, if_false, ed] using hA
  · rw [Bool.not_eq_true] at ed
    rw [ed] at hz hec'
    have hd : g'.view.ec (.across false) = g'.inter := rfl
    rw [hd] at hz hec'
    refine ⟨{ g' with inter := g'.inter.drop (EdgeKey.of s t) }, ?_, ?_⟩
    · simp [ed, EdgeContainer.remove_ok hz]
    · rw [Graph.view_inter g', v, hec']
      simpa only [View.delE, place, hk, if_false, ed] using hA

theorem Spec.contains_of_key? {n : NodeId} : σ.nodes.contains n = (σ.key? n).isSome := by
  simp [Spec.key?, OMap.contains]

theorem R.insertEdge (h : R g σ) (hw : SWF σ) (s t : NodeId) (info : Option EdgeAttrs) (gone : NodeStatus) :
    ∃ g', g.insertEdge s t info = .ok (g', (σ.insertEdge s t info).2) ∧
      Adv gone g.view g'.view (σ.insertEdge s t info).1 := by
  have hrefl : Adv gone g.view g.view σ := Adv.refl gone h
  cases hs : σ.nodes.find? s with
  | none =>
    have hk : σ.key? s = none := by simp [Spec.key?, hs]
    refine ⟨g, ?_, ?_⟩
    · simp [Graph.insertEdge, h.hasEdgeKeys_none (.inl hk), LayerKey.unknown, LayerKey.valid, LayerKey.layer,
        Spec.insertEdge, Spec.contains_of_key?, hk]
    · simpa [Spec.insertEdge, Spec.contains_of_key?, hk] using hrefl
  | some i =>
  cases ht : σ.nodes.find? t with
  | none =>
    have hk : σ.key? t = none := by simp [Spec.key?, ht]
    refine ⟨g, ?_, ?_⟩
    · simp [Graph.insertEdge, h.hasEdgeKeys_none (.inr hk), LayerKey.unknown, LayerKey.valid, LayerKey.layer,
        Spec.insertEdge, Spec.contains_of_key?, hk]
    · simpa [Spec.insertEdge, Spec.contains_of_key?, hk] using hrefl
  | some j =>
    have hks := Spec.key?_eq hs
    have hkt := Spec.key?_eq ht
    simp only [Graph.insertEdge, h.hasEdgeKeys hw hks hkt, Res.bind_ok, hw.valid hks, hw.valid hkt,
      Spec.insertEdge, Spec.contains_of_key?, hks, hkt]
    by_cases hne : s = t
    · subst hne
      rw [hs] at ht; cases ht
      obtain ⟨b, hb⟩ := h.layerAt? hw hks
      refine ⟨g, ?_, by simpa using hrefl⟩
      simp [hw.hasEdge_self, Graph.layerFromKey_eq hb, BaseLayer.insertEdge_self, Graph.setLayer_self hb]
    · cases he : σ.hasEdge s t with
      | true => exact ⟨g, by simp [hne], by simpa [hne] using hrefl⟩
      | false =>
        by_cases hk : i.key = j.key
        · obtain ⟨b, hb⟩ := h.layerAt? hw hks
          obtain ⟨b', e, -, hA⟩ := h.layer_insert hs ht hk hne he hb (some (info.getD {})) gone
          refine ⟨g.setLayer i.key b', ?_, ?_⟩
          · simp [hne, hk, Graph.layerFromKey_eq (hk ▸ hb), e]
          · simpa [hne] using hA
        · obtain ⟨g', e, hA⟩ := h.inter_insert hw hs ht hk he (info.getD {}) gone
          refine ⟨g'.insertInterlayer s t i.key j.key (some (info.getD {})), ?_, ?_⟩
          · simp [hk, e, hne]
          · simpa [hne] using hA

theorem R.removeEdge (h : R g σ) (hw : SWF σ) (s t : NodeId) (gone : NodeStatus) :
    ∃ g', g.removeEdge s t = .ok (g', (σ.removeEdge s t).2) ∧
      Adv gone g.view g'.view (σ.removeEdge s t).1 := by
  have hrefl : Adv gone g.view g.view σ := Adv.refl gone h
  cases he : σ.hasEdge s t with
  | false =>
    refine ⟨g, ?_, by simpa [Spec.removeEdge, he] using hrefl⟩
    cases hs : σ.key? s with
    | none => simp [Graph.removeEdge, h.hasEdgeKeys_none (.inl hs), Spec.removeEdge, he]
    | some ks =>
      cases ht : σ.key? t with
      | none => simp [Graph.removeEdge, h.hasEdgeKeys_none (.inr ht), Spec.removeEdge, he]
      | some kt => simp [Graph.removeEdge, h.hasEdgeKeys hw hs ht, Spec.removeEdge, he]
  | true =>
    obtain ⟨hne, hs, ht⟩ := hw.hasEdge_nodes he
    obtain ⟨i, hs⟩ := OMap.contains_eq_true.1 hs
    obtain ⟨j, ht⟩ := OMap.contains_eq_true.1 ht
    have hks := Spec.key?_eq hs
    have hkt := Spec.key?_eq ht
    simp only [Graph.removeEdge, h.hasEdgeKeys hw hks hkt, Res.bind_ok, hw.valid hks, hw.valid hkt,
      Spec.removeEdge, he]
    by_cases hk : i.key = j.key
    · obtain ⟨b, hb⟩ := h.layerAt? hw hks
      obtain ⟨b', e, -, hA⟩ := h.layer_remove hs ht hk hne he hb gone
      refine ⟨g.setLayer i.key b', ?_, by simpa using hA⟩
      simp [hk, Graph.layerFromKey_eq (hk ▸ hb), e]
    · obtain ⟨g', e, hA⟩ := h.inter_remove hw hs ht hk he gone
      exact ⟨g', by simp [hk, e], by simpa using hA⟩

end
end Verif
