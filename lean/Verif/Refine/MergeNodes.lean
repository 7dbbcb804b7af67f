import Verif.Refine.RemoveNode
/-!
# Refinement: `mergeNodes`
-/

namespace Verif

section
variable {g : Graph} {σ : Spec}

/-- attributes of an edge (default if absent) -/
def Spec.attrsOf (σ : Spec) (a b : NodeId) : EdgeAttrs := ((σ.edge? a b).map EdgeInfo.attrs).getD {}

/-- move the edge `f`–`x` to `t`–`x`, or drop it if it cannot be moved -/
def Spec.rewire1 (σ : Spec) (f t x : NodeId) : Spec :=
  if t = x ∨ σ.hasEdge t x = true then σ.eraseEdge (EdgeKey.of f x)
  else ((σ.touch (EdgeKey.of f x)).eraseEdge (EdgeKey.of f x)).addEdge t x (σ.attrsOf f x)

theorem Spec.rewire1_nodes (f t x : NodeId) : (σ.rewire1 f t x).nodes = σ.nodes := by
  unfold Spec.rewire1
  split
  · rfl
  · exact (Spec.touch_fields σ _).2.2.1

theorem SWF.rewire1 (hw : SWF σ) {f t x : NodeId} (ht : σ.nodes.contains t = true) (hx : σ.nodes.contains x = true) :
    SWF (σ.rewire1 f t x) := by
  unfold Spec.rewire1
  split
  · exact hw.eraseEdge _
  · rename_i h
    have hf := (Spec.touch_fields σ (EdgeKey.of f x)).2.2.1
    refine ((hw.touch _).eraseEdge _).addEdge ?_ ?_ (fun e => h (Or.inl e)) _
    · show (σ.touch _).nodes.contains t = true
      rw [hf]; exact ht
    · show (σ.touch _).nodes.contains x = true
      rw [hf]; exact hx

/-- The three changes made when an edge is moved. -/
theorem adv_rewire {v : View} (h : RV v σ) {f t x : NodeId} {i i' j : NodeInfo} (hf : σ.nodes.find? f = some i)
    (ht : σ.nodes.find? t = some i') (hx : σ.nodes.find? x = some j) (hfx : f ≠ x) (hft : f ≠ t) (htx : t ≠ x)
    (he : σ.hasEdge f x = true) (hn : σ.hasEdge t x = false) (gone : NodeStatus) (a : EdgeAttrs) :
    ∃ v2 σ2, v2 = (v.setE (place i.key j.key) ((v.ec (place i.key j.key)).find f x).1).delE f x i.key j.key (σ.mkNode f i) (σ.mkNode x j) ∧
      σ2 = (σ.touch (EdgeKey.of f x)).eraseEdge (EdgeKey.of f x) ∧ RV v2 σ2 ∧ σ2.mkNode t i' = σ.mkNode t i' ∧
      Adv gone v (v2.addE t x i'.key j.key (σ2.mkNode t i') (σ2.mkNode x j) a) (σ2.addEdge t x a) := by
  obtain ⟨f1, f2, f3, f4, f5⟩ := Spec.touch_fields σ (EdgeKey.of f x)
  have A1 := adv_touch h (Spec.key?_eq hf) (Spec.key?_eq hx) gone
  generalize hσ1 : σ.touch (EdgeKey.of f x) = σ1 at *
  have hk1 : ∀ n, σ1.key? n = σ.key? n := fun n => by simp [Spec.key?, f3]
  have hE1 : ∀ a b, σ1.hasEdge a b = σ.hasEdge a b := fun a b => by simp [Spec.hasEdge, f4]
  have A2 := adv_eraseEdge A1.r (s := f) (t := x) (i := i) (j := j) (by rw [f3]; exact hf) (by rw [f3]; exact hx) hfx (by rw [hE1]; exact he) gone
  have hm1 : ∀ n i, σ1.mkNode n i = σ.mkNode n i := fun n i => Spec.mkNode_congr hk1 (fun m => hE1 n m)
  rw [hm1, hm1] at A2
  have hn2 : (σ1.eraseEdge (EdgeKey.of f x)).hasEdge t x = false := by
    have := hE1 t x
    simp only [Spec.hasEdge, Spec.eraseEdge, OMap.contains_erase] at *
    rw [this, hn]; simp
  have A3 := adv_addEdge A2.r (s := t) (t := x) (i := i') (j := j) (by show σ1.nodes.find? t = _; rw [f3]; exact ht)
    (by show σ1.nodes.find? x = _; rw [f3]; exact hx) htx hn2 a gone
  refine ⟨_, _, rfl, rfl, A2.r, ?_, ?_⟩
  · rw [← hm1]
    refine Spec.mkNode_congr (fun _ => rfl) ?_
    intro m
    simp only [Spec.hasEdge, Spec.eraseEdge, OMap.contains_erase]
    have : EdgeKey.of f x ≠ EdgeKey.of t m := by
      intro e
      rcases EdgeKey.of_inj.1 e with ⟨h1, -⟩ | ⟨-, h2⟩
      · exact hft h1
      · exact htx h2.symm
    simp [this]
  · have A12 := Adv.trans h A1 A2 hk1 (fun _ => rfl) (by
      intro key; left; rw [f4])
    refine Adv.trans h A12 A3 hk1 (fun _ => rfl) ?_
    intro key
    by_cases e1 : EdgeKey.of f x = key
    · right
      have : EdgeKey.of t x ≠ key := by
        rintro rfl
        rcases EdgeKey.of_inj.1 e1 with ⟨h1, -⟩ | ⟨h1, -⟩
        · exact hft h1
        · exact hfx h1
      simp [Spec.addEdge, OMap.contains_insert, this]
    · left; simp [Spec.eraseEdge, OMap.contains_erase, e1, f4]

theorem View.setE_setE (v : View) (c : Place) (e e' : EdgeContainer) : (v.setE c e).setE c e' = v.setE c e' := by
  simp only [View.setE, View.mk.injEq, true_and, and_true]
  funext c'; by_cases h : c = c' <;> simp [h]

theorem View.ec_setE (v : View) (c : Place) (e : EdgeContainer) : (v.setE c e).ec c = e := by simp [View.setE]

/-- `rewireInterlayerEdge` on an existing edge between layers. -/
theorem R.rewireInter (h : R g σ) (hw : SWF σ) {f t x : NodeId} {i i' j : NodeInfo} (hf : σ.nodes.find? f = some i)
    (ht : σ.nodes.find? t = some i') (hx : σ.nodes.find? x = some j) (hk : i.key = i'.key) (hkx : i.key ≠ j.key)
    (hft : f ≠ t) (he : σ.hasEdge f x = true) (gone : NodeStatus) :
    ∃ g', g.rewireInterlayerEdge f t x = .ok g' ∧ Adv gone g.view g'.view (σ.rewire1 f t x) := by
  have hfx : f ≠ x := (hw.hasEdge_nodes he).1
  have htx : t ≠ x := by rintro rfl; rw [ht] at hx; cases hx; exact hkx hk
  have kf := Spec.key?_eq hf
  have kt := Spec.key?_eq ht
  have kx := Spec.key?_eq hx
  simp only [Graph.rewireInterlayerEdge, hft, if_false, h.lookup', kf, Res.at?_some, Res.bind_ok, h.hasEdgeKeys hw kt kx]
  cases hn : σ.hasEdge t x with
  | true =>
    simp only [if_true]
    have : σ.rewire1 f t x = σ.eraseEdge (EdgeKey.of f x) := by simp [Spec.rewire1, hn]
    rw [this]
    exact h.inter_remove hw hf hx hkx he gone
  | false =>
    have hr : σ.rewire1 f t x = ((σ.touch (EdgeKey.of f x)).eraseEdge (EdgeKey.of f x)).addEdge t x (σ.attrsOf f x) := by
      simp [Spec.rewire1, hn, htx]
    rw [hr]
    obtain ⟨v2, σ2, hv2, hσ2, R2, hmt, A⟩ := adv_rewire h hf ht hx hfx hft htx he hn gone (σ.attrsOf f x)
    obtain ⟨g1, e1, w1⟩ := Graph.removeAncestry_ok (RV.node_of h hf) (RV.node_of h hx) hfx (h.kok hw kf) (h.kok hw kx)
    have hn2 : v2.node = g1.view.node := by rw [w1, hv2]; rfl
    have hnodes2 : σ2.nodes = σ.nodes := by rw [hσ2]; exact (Spec.touch_fields σ _).2.2.1
    have ht1 : g1.view.node i'.key t = some (σ2.mkNode t i') := by
      rw [← hn2]; exact RV.node_of R2 (by rw [hnodes2]; exact ht)
    have hx1 : g1.view.node j.key x = some (σ2.mkNode x j) := by
      rw [← hn2]; exact RV.node_of R2 (by rw [hnodes2]; exact hx)
    have hko : ∀ k, g.view.KOk k → g1.view.KOk k := by intro k hk'; rw [w1]; cases k <;> exact hk'
    obtain ⟨g2, e2, w2⟩ := Graph.addAncestry_ok ht1 hx1 htx (hko _ (h.kok hw kt)) (hko _ (h.kok hw kx))
    simp only [Bool.false_eq_true, if_false, e1, e2, Res.bind_ok]
    have hec : g2.view.ec = g.view.ec := by rw [w2, w1]; rfl
    obtain ⟨e0, he0⟩ := OMap.contains_eq_true.1 he
    have hfind := RV.find_res h kf kx
    have hattr : σ.attrsOf f x = e0.attrs := by simp [Spec.attrsOf, Spec.edge?, he0]
    rw [Spec.edge?, he0] at hfind
    obtain ⟨z, hz⟩ := Adv.status_some h kf kx he
    have hz' : ((g.view.ec (place i.key j.key)).find f x).1.status.find? (EdgeKey.of f x) = some z := by
      rw [touch_status.1]; exact hz
    have hfin : ∀ g3 : Graph, g3.view = g2.view.setE (place i.key j.key)
        (((g.view.ec (place i.key j.key)).find f x).1.drop (EdgeKey.of f x)) →
        Adv gone g.view (g3.insertInterlayer t x i'.key j.key (some (σ.attrsOf f x))).view (σ2.addEdge t x (σ.attrsOf f x)) := by
      intro g3 hg3
      rw [Graph.view_insertInterlayer (by rw [← hk]; exact hkx), hg3, w2, w1, ← hk, View.ec_setE, View.setE_setE]
      rw [← hk] at A
      simp only [View.addE, hv2, View.delE, View.setE_setE, View.setN_setE, View.ec_setE] at A
      exact A
    rw [← hσ2]
    have hpl : place i.key j.key = .across (i.key.dynamic || j.key.dynamic) := by simp [place, hkx]
    rw [hpl] at hfind hz' hfin
    rw [hattr] at hfin ⊢
    cases hd : (i.key.dynamic || j.key.dynamic) with
    | true =>
      rw [hd] at hfind hz' hfin
      rw [← hec] at hfind hz' hfin
      have hg : g2.view.ec (.across true) = g2.dynInter := rfl
      rw [hg] at hfind hz' hfin
      simp only [if_true, hfind, Option.map_some, Spec.mkEdge, Res.deref_some, Res.bind_ok, EdgeContainer.remove_ok hz', Res.pure_eq]
      exact ⟨_, rfl, hfin _ (Graph.view_dynInter _ _)⟩
    | false =>
      rw [hd] at hfind hz' hfin
      rw [← hec] at hfind hz' hfin
      have hg : g2.view.ec (.across false) = g2.inter := rfl
      rw [hg] at hfind hz' hfin
      simp only [Bool.false_eq_true, if_false, hfind, Option.map_some, Spec.mkEdge, Res.deref_some, Res.bind_ok, EdgeContainer.remove_ok hz', Res.pure_eq]
      exact ⟨_, rfl, hfin _ (Graph.view_inter _ _)⟩

theorem EdgeContainer.rewire_ok {c : EdgeContainer} {s t s' t' : NodeId} {e : Edge} {a : EdgeAttrs} {z : EdgeStatus}
    (he : (c.find s t).2 = some e) (ha : e.info = some a) (hz : c.status.find? (EdgeKey.of s t) = some z) :
    c.rewire s t s' t' = .ok (((c.find s t).1.drop (EdgeKey.of s t)).insert s' t' (some a)) := by
  simp only [EdgeContainer.rewire]
  have h1 : c.findKey (EdgeKey.of s t) = c.find s t := rfl
  have hz' : (c.find s t).1.status.find? (EdgeKey.of s t) = some z := by rw [touch_status.1]; exact hz
  rw [h1, he]
  simp only [ha, Res.deref_some, Res.bind_ok, hz', Res.at?_some, EdgeContainer.remove, OMap.find?_insert, if_true, Res.pure_eq,
    OMap.insert_insert, EdgeContainer.drop]

/-- `rewireEdge` of a static layer, at the graph level. -/
theorem R.rewireWithin (h : R g σ) (hw : SWF σ) {f t x : NodeId} {i i' j : NodeInfo} (hf : σ.nodes.find? f = some i)
    (ht : σ.nodes.find? t = some i') (hx : σ.nodes.find? x = some j) (hk : i.key = i'.key) (hkx : i.key = j.key)
    (hft : f ≠ t) (he : σ.hasEdge f x = true) {l : Layer} (hb : g.layerAt? i.key = some (.static l)) (gone : NodeStatus) :
    ∃ l', l.rewireEdge f x t x = .ok (l', true) ∧
      Adv gone g.view (g.setLayer i.key (.static l')).view (σ.rewire1 f t x) := by
  have hfx : f ≠ x := (hw.hasEdge_nodes he).1
  have kf := Spec.key?_eq hf
  have kt := Spec.key?_eq ht
  have kx := Spec.key?_eq hx
  have hnf : (BaseLayer.static l).nd f = some (σ.mkNode f i) := by
    rw [← Graph.view_node_of_layerAt? hb]; exact RV.node_of h hf
  have hnt : (BaseLayer.static l).nd t = some (σ.mkNode t i') := by
    rw [← Graph.view_node_of_layerAt? hb, hk]; exact RV.node_of h ht
  have hnx : (BaseLayer.static l).nd x = some (σ.mkNode x j) := by
    rw [← Graph.view_node_of_layerAt? hb, hkx]; exact RV.node_of h hx
  have hec : g.view.ec (.within i.key) = l.edges := h.ecWithin hb
  have hEl : ∀ a b ka kb, σ.key? a = some ka → σ.key? b = some kb → ka = i.key → kb = i.key → l.hasEdge a b = σ.hasEdge a b := by
    intro a b ka kb h1 h2 h3 h4
    have := RV.contains_eq h h1 h2
    subst h3 h4
    simp only [place, if_true, hec] at this
    exact this
  have h1 : l.hasEdge f x = true := by rw [hEl f x _ _ kf kx rfl hkx.symm]; exact he
  have h2 : l.hasEdge t x = σ.hasEdge t x := hEl t x _ _ kt kx hk.symm hkx.symm
  have h3 : l.hasNode t = true := by simp only [BaseLayer.nd] at hnt; simp [Layer.hasNode, OMap.contains, hnt]
  have h4 : l.hasNode x = true := by simp only [BaseLayer.nd] at hnx; simp [Layer.hasNode, OMap.contains, hnx]
  simp only [Layer.rewireEdge, h1, h3, h4, h2, hft, Bool.not_true, Bool.or_self, Bool.false_eq_true, if_false, false_and]
  by_cases hc : t = x ∨ σ.hasEdge t x = true
  · rw [if_pos hc]
    have : σ.rewire1 f t x = σ.eraseEdge (EdgeKey.of f x) := by simp only [Spec.rewire1, if_pos hc]
    rw [this]
    obtain ⟨b', e', f', A⟩ := h.layer_remove hf hx hkx hfx he hb gone
    simp only [BaseLayer.removeEdge] at e'
    cases hq : l.removeEdge f x with
    | ub => rw [hq] at e'; simp at e'
    | throw y => rw [hq] at e'; simp at e'
    | ok r =>
      rw [hq] at e'
      simp only [Res.bind_ok, Res.pure_eq, Res.ok.injEq, Prod.mk.injEq] at e'
      exact ⟨r.1, by simp, by rw [e'.1]; exact A⟩
  · rw [if_neg hc]
    have hr : σ.rewire1 f t x = ((σ.touch (EdgeKey.of f x)).eraseEdge (EdgeKey.of f x)).addEdge t x (σ.attrsOf f x) := by
      simp only [Spec.rewire1, if_neg hc]
    rw [hr]
    rw [not_or, Bool.not_eq_true] at hc
    obtain ⟨htx, hn⟩ := hc
    obtain ⟨v2, σ2, hv2, hσ2, R2, hmt, A⟩ := adv_rewire h hf ht hx hfx hft htx he hn gone (σ.attrsOf f x)
    rw [← hσ2]
    obtain ⟨e0, he0⟩ := OMap.contains_eq_true.1 he
    have hfind := RV.find_res h kf kx
    have hattr : σ.attrsOf f x = e0.attrs := by simp [Spec.attrsOf, Spec.edge?, he0]
    rw [Spec.edge?, he0] at hfind
    obtain ⟨z, hz⟩ := Adv.status_some h kf kx he
    have hpl : place i.key j.key = .within i.key := by simp [place, hkx]
    rw [hpl, hec] at hfind hz
    have hrw := EdgeContainer.rewire_ok (s' := t) (t' := x) hfind (by rfl) hz
    rw [hrw, ← hattr, Res.bind_ok]
    generalize hC : ((l.edges.find f x).1.drop (EdgeKey.of f x)).insert t x (some (σ.attrsOf f x)) = C
    -- the four node updates
    have q0 : (BaseLayer.static { l with edges := C }) = (BaseLayer.static l).setEc C := rfl
    obtain ⟨l1, u1, w1⟩ := BaseLayer.modNode_eq (l := { l with edges := C }) (n := f) (x := σ.mkNode f i)
      (by rw [q0]; simpa using hnf) (fun y => { y with siblings := y.siblings.erase x })
    have hx1 : (BaseLayer.static l1).nd x = some (σ.mkNode x j) := by
      rw [w1, q0, BaseLayer.nd_setNode (by simpa using hnf)]; simpa [hfx] using hnx
    obtain ⟨l2, u2, w2⟩ := BaseLayer.modNode_eq hx1 (fun y => { y with siblings := y.siblings.erase f })
    have hnodes2 : σ2.nodes = σ.nodes := by rw [hσ2]; exact (Spec.touch_fields σ _).2.2.1
    have hv : (g.setLayer i.key (.static l2)).view = ((g.view.setN i.key f (BaseLayer.delSib x (σ.mkNode f i))).setN i.key x
        (BaseLayer.delSib f (σ.mkNode x j))).setE (.within i.key) C := by
      rw [← Graph.view_two hb hnf hnx hfx, w2, w1, q0]
      rfl
    have hun : ∀ y : Node, ∀ m, y.unlink i.key i.key m = BaseLayer.delSib m y := fun y m =>
      Node.unlink_eq (lt_irrefl_layer i.key) (lt_irrefl_layer i.key)
    have hln : ∀ y : Node, ∀ m, y.link i.key i.key m = BaseLayer.addSib m y := fun y m =>
      Node.link_eq (lt_irrefl_layer i.key) (lt_irrefl_layer i.key)
    have hl2 : (g.setLayer i.key (.static l2)).layerAt? i.key = some (.static l2) := by
      rw [Graph.layerAt?_setLayer' ((fits_static _ _ _).1 (Graph.fits_of_layerAt? hb))]; simp
    have hnode2 : v2.node = (g.setLayer i.key (.static l2)).view.node := by
      rw [hv, hv2]; simp only [View.delE, ← hkx, hun]; rfl
    have ht2 : (BaseLayer.static l2).nd t = some (σ2.mkNode t i') := by
      rw [← Graph.view_node_of_layerAt? hl2, ← hnode2, hk]; exact RV.node_of R2 (by rw [hnodes2]; exact ht)
    have hx2 : (BaseLayer.static l2).nd x = some (σ2.mkNode x j) := by
      rw [← Graph.view_node_of_layerAt? hl2, ← hnode2, hkx]; exact RV.node_of R2 (by rw [hnodes2]; exact hx)
    obtain ⟨l3, u3, w3⟩ := BaseLayer.modNode_eq ht2 (fun y => { y with siblings := y.siblings.add x })
    have hx3 : (BaseLayer.static l3).nd x = some (σ2.mkNode x j) := by
      rw [w3, BaseLayer.nd_setNode ht2]; simpa [htx] using hx2
    obtain ⟨l4, u4, w4⟩ := BaseLayer.modNode_eq hx3 (fun y => { y with siblings := y.siblings.add t })
    refine ⟨l4, by simp only [u1, u2, u3, u4, Res.bind_ok, Res.pure_eq], ?_⟩
    have hEc : ∀ b : BaseLayer, ∀ c, b.ec = c → b.setEc c = b := by rintro b c rfl; cases b <;> rfl
    have hec4 : (BaseLayer.static l4).ec = C := by rw [w4, w3]; simp; rw [w2, w1, q0]; simp
    have hv4 : (g.setLayer i.key (.static l4)).view = (((g.setLayer i.key (.static l2)).view.setN i.key t
        (BaseLayer.addSib x (σ2.mkNode t i'))).setN i.key x (BaseLayer.addSib t (σ2.mkNode x j))).setE (.within i.key) C := by
      rw [← Graph.view_two hl2 ht2 hx2 htx, Graph.setLayer_setLayer]
      · congr 1
        rw [← hEc _ _ hec4, w4, w3]; rfl
      · exact (fits_static _ _ _).1 (Graph.fits_of_layerAt? hb)
      · simpa using (fits_static _ _ _).1 (Graph.fits_of_layerAt? hb)
    rw [hv4, hv]
    simp only [View.addE, hv2, View.delE, View.setE_setE, View.setN_setE, View.ec_setE, ← hk, ← hkx, hun, hln, place, if_true, hec] at A ⊢
    rw [← hC]
    exact A

/-! ## Loops of rewirings -/

/-- `σ` is `σ0` with the edges from `f` to the nodes of `L` moved to `t`. -/
structure Rewired (σ0 : Spec) (f t : NodeId) (L : List NodeId) (σ : Spec) : Prop where
  layerIds : σ.layerIds = σ0.layerIds
  dyn : σ.dyn = σ0.dyn
  nodes : σ.nodes = σ0.nodes
  mesh : σ.mesh = σ0.mesh
  /-- edges of `f` to `L` are gone -/
  gone : ∀ x ∈ L, σ.edges.find? (EdgeKey.of f x) = none
  /-- each of them was offered to `t` -/
  moved : ∀ x ∈ L, x ≠ t → σ.edges.find? (EdgeKey.of t x) =
    (σ0.edges.find? (EdgeKey.of t x)).or (some ⟨t, x, σ0.attrsOf f x⟩)
  /-- nothing else changed -/
  other : ∀ key, (∀ x ∈ L, EdgeKey.of f x ≠ key) → (∀ x ∈ L, x ≠ t → EdgeKey.of t x ≠ key) →
    σ.edges.find? key = σ0.edges.find? key
  marks : ∀ key, σ.marks.find? key =
    if L.any (fun x => EdgeKey.of f x == key && t != x && !σ0.hasEdge t x && decide (σ0.marks.find? key = σ0.placeOf key)) then none
    else σ0.marks.find? key

theorem Rewired.refl (σ : Spec) (f t : NodeId) : Rewired σ f t [] σ :=
  ⟨rfl, rfl, rfl, rfl, by simp, by simp, by simp, by simp⟩

theorem of_ne {f t a b : NodeId} (hft : f ≠ t) (ha : b ≠ f) : EdgeKey.of f a ≠ EdgeKey.of t b := by
  intro e
  rcases EdgeKey.of_inj.1 e with ⟨h, -⟩ | ⟨h, -⟩
  · exact hft h
  · exact ha h.symm

theorem of_inj_right {f a b : NodeId} (h : EdgeKey.of f a = EdgeKey.of f b) : a = b := by
  rcases EdgeKey.of_inj.1 h with ⟨-, h⟩ | ⟨h1, h2⟩
  · exact h
  · exact h2.trans h1

theorem Rewired.step {σ0 σ : Spec} {f t : NodeId} {L : List NodeId} (h : Rewired σ0 f t L σ) {x : NodeId} (hft : f ≠ t)
    (hx : x ∉ L) (hfx : x ≠ f) (hLf : ∀ y ∈ L, y ≠ f) (hE : σ0.hasEdge f x = true) :
    Rewired σ0 f t (L ++ [x]) (σ.rewire1 f t x) ∧
      (∀ key, σ0.edges.contains key = σ.edges.contains key ∨ σ.edges.contains key = (σ.rewire1 f t x).edges.contains key) ∧
      σ.hasEdge f x = true := by
  have hfk : σ.edges.find? (EdgeKey.of f x) = σ0.edges.find? (EdgeKey.of f x) := by
    apply h.other
    · intro y hy e; exact hx (of_inj_right e ▸ hy)
    · intro y hy _ e; exact of_ne hft (hLf y hy) e.symm
  have htk : x ≠ t → σ.edges.find? (EdgeKey.of t x) = σ0.edges.find? (EdgeKey.of t x) := by
    intro hxt
    apply h.other
    · intro y hy e; exact of_ne hft hfx e
    · intro y hy _ e; exact hx (of_inj_right e ▸ hy)
  have hE1 : σ.hasEdge f x = true := by simp only [Spec.hasEdge, OMap.contains] at hE ⊢; rw [hfk]; exact hE
  have hmk : σ.marks.find? (EdgeKey.of f x) = σ0.marks.find? (EdgeKey.of f x) := by
    rw [h.marks, if_neg]
    simp only [List.any_eq_true, Bool.and_eq_true, beq_iff_eq, not_exists, not_and]
    intro y hy e; exact absurd (of_inj_right e.1.1 ▸ hy) hx
  have hpl : ∀ key, σ.placeOf key = σ0.placeOf key := fun key => Spec.placeOf_nodes h.nodes key
  have hattr : σ.attrsOf f x = σ0.attrsOf f x := by simp [Spec.attrsOf, Spec.edge?, hfk]
  obtain ⟨f1, f2, f3, f4, f5⟩ := Spec.touch_fields σ (EdgeKey.of f x)
  refine ⟨?_, ?_, hE1⟩
  · by_cases hc : t = x ∨ σ.hasEdge t x = true
    · have hr : σ.rewire1 f t x = σ.eraseEdge (EdgeKey.of f x) := by simp only [Spec.rewire1, if_pos hc]
      rw [hr]
      refine ⟨h.layerIds, h.dyn, h.nodes, h.mesh, ?_, ?_, ?_, ?_⟩
      · intro y hy
        rw [Spec.find?_eraseEdge]
        rcases List.mem_append.1 hy with hy | hy
        · rw [h.gone y hy]; simp
        · simp only [List.mem_singleton] at hy; subst hy; simp
      · intro y hy hyt
        rw [Spec.find?_eraseEdge]
        rcases List.mem_append.1 hy with hy | hy
        · rw [if_neg (of_ne hft (hLf y hy)), h.moved y hy hyt]
        · simp only [List.mem_singleton] at hy; subst hy
          rw [if_neg (of_ne hft hfx), htk hyt]
          rcases hc with hc | hc
          · exact absurd hc.symm hyt
          · obtain ⟨e, he⟩ := OMap.contains_eq_true.1 hc
            rw [htk hyt] at he; rw [he]; rfl
      · intro key h1 h2
        rw [Spec.find?_eraseEdge, if_neg (h1 x (by simp))]
        exact h.other key (fun y hy => h1 y (by simp [hy])) (fun y hy => h2 y (by simp [hy]))
      · intro key
        show σ.marks.find? key = _
        rw [h.marks, List.any_append]
        have : ([x].any fun x => EdgeKey.of f x == key && t != x && !σ0.hasEdge t x && decide (σ0.marks.find? key = σ0.placeOf key)) = false := by
          simp only [List.any_cons, List.any_nil, Bool.or_false]
          rcases hc with hc | hc
          · simp [hc]
          · by_cases hxt : t = x
            · simp [hxt]
            · have : σ0.hasEdge t x = true := by
                simp only [Spec.hasEdge, OMap.contains] at hc ⊢; rw [← htk (Ne.symm hxt)]; exact hc
              simp [this]
        rw [this, Bool.or_false]
    · have hr : σ.rewire1 f t x = ((σ.touch (EdgeKey.of f x)).eraseEdge (EdgeKey.of f x)).addEdge t x (σ0.attrsOf f x) := by
        simp only [Spec.rewire1, if_neg hc, hattr]
      rw [hr]
      rw [not_or, Bool.not_eq_true] at hc
      obtain ⟨htx, hn⟩ := hc
      have hn0 : σ0.edges.find? (EdgeKey.of t x) = none := by
        rw [← htk (Ne.symm htx)]; exact OMap.contains_eq_false.1 hn
      have hfd : ∀ key, (((σ.touch (EdgeKey.of f x)).eraseEdge (EdgeKey.of f x)).addEdge t x (σ0.attrsOf f x)).edges.find? key =
          if EdgeKey.of t x = key then some ⟨t, x, σ0.attrsOf f x⟩ else if EdgeKey.of f x = key then none else σ.edges.find? key := by
        intro key
        simp only [Spec.addEdge, Spec.eraseEdge, OMap.find?_insert, OMap.find?_erase, f4]
      refine ⟨f1.trans h.layerIds, f2.trans h.dyn, f3.trans h.nodes, f5.trans h.mesh, ?_, ?_, ?_, ?_⟩
      · intro y hy
        rw [hfd, if_neg (Ne.symm (of_ne hft hfx))]
        rcases List.mem_append.1 hy with hy | hy
        · rw [h.gone y hy]; simp
        · simp only [List.mem_singleton] at hy; subst hy; simp
      · intro y hy hyt
        rw [hfd]
        rcases List.mem_append.1 hy with hy | hy
        · have : x ≠ y := by rintro rfl; exact hx hy
          rw [if_neg (fun e => this (of_inj_right e)), if_neg (of_ne hft (hLf y hy)), h.moved y hy hyt]
        · simp only [List.mem_singleton] at hy; subst hy
          simp [hn0]
      · intro key h1 h2
        rw [hfd, if_neg (h2 x (by simp) (Ne.symm htx)), if_neg (h1 x (by simp))]
        exact h.other key (fun y hy => h1 y (by simp [hy])) (fun y hy => h2 y (by simp [hy]))
      · intro key
        show (σ.touch (EdgeKey.of f x)).marks.find? key = _
        rw [Spec.find?_marks_touch, hpl, hmk, List.any_append]
        have hcE : σ.edges.contains (EdgeKey.of f x) = true := hE1
        have hn0' : σ0.hasEdge t x = false := OMap.contains_eq_false.2 hn0
        simp only [hcE, true_and, List.any_cons, List.any_nil, Bool.or_false, hn0', Bool.not_false, Bool.and_true]
        by_cases ek : EdgeKey.of f x = key
        · subst ek
          by_cases em : σ0.marks.find? (EdgeKey.of f x) = σ0.placeOf (EdgeKey.of f x)
          · simp [em, htx]
          · simp [em, hmk]
        · simp only [ek, false_and, if_false, h.marks, beq_eq_false_iff_ne.2 ek, Bool.false_and, Bool.or_false]
  · intro key
    by_cases hk : EdgeKey.of f x = key
    · left; subst hk; simp only [OMap.contains, hfk]
    · by_cases hk' : EdgeKey.of t x = key
      · by_cases hxt : x = t
        · right
          have : σ.rewire1 f t x = σ.eraseEdge (EdgeKey.of f x) := by simp only [Spec.rewire1, if_pos (Or.inl hxt.symm)]
          rw [this]; simp only [OMap.contains, Spec.find?_eraseEdge, hk, if_false]
        · left; subst hk'; simp only [OMap.contains, htk hxt]
      · right
        unfold Spec.rewire1
        split
        · simp only [OMap.contains, Spec.find?_eraseEdge, hk, if_false]
        · simp only [Spec.addEdge, Spec.eraseEdge, OMap.contains, OMap.find?_insert, OMap.find?_erase, f4, hk, hk', if_false]

/-- A loop that moves edges of `f` to `t`, continuing from an earlier one. -/
theorem fold_rewire {σ0 : Spec} {f t : NodeId} (hft : f ≠ t) (ht : σ0.nodes.contains t = true) (hw0 : SWF σ0) (F : Graph → NodeId → Res Graph) (gone : NodeStatus)
    {g0 : Graph} (h0 : R g0 σ0) (L' : List NodeId)
    (step : ∀ (g : Graph) (σ : Spec) (x : NodeId), x ∈ L' → R g σ → SWF σ → σ.nodes = σ0.nodes → σ.hasEdge f x = true →
      ∃ g', F g x = .ok g' ∧ Adv gone g.view g'.view (σ.rewire1 f t x)) :
    ∀ (L : List NodeId) (g : Graph) (σ : Spec), Rewired σ0 f t L σ → Adv gone g0.view g.view σ → SWF σ →
      (L ++ L').Nodup → (∀ x ∈ L ++ L', σ0.hasEdge f x = true) →
      ∃ g' σ', foldRes F g L' = .ok g' ∧ Rewired σ0 f t (L ++ L') σ' ∧ Adv gone g0.view g'.view σ' ∧ SWF σ' := by
  induction L' with
  | nil =>
    intro L g σ hr ha hw _ _
    exact ⟨g, σ, rfl, by simpa using hr, ha, hw⟩
  | cons x L' ih =>
    intro L g σ hr ha hw hnd hE
    have hx : x ∉ L := by
      rw [List.nodup_append] at hnd
      intro hxL; exact hnd.2.2 x hxL x (by simp) rfl
    have hEx : σ0.hasEdge f x = true := hE x (by simp)
    have hne : ∀ y, σ0.hasEdge f y = true → y ≠ f := fun y hy => Ne.symm (hw0.hasEdge_nodes hy).1
    obtain ⟨r1, r2, r3⟩ := hr.step hft hx (hne x hEx) (fun y hy => hne y (hE y (by simp [hy]))) hEx
    obtain ⟨g1, e1, A1⟩ := step g σ x (by simp) ha.r hw hr.nodes r3
    have hcx : σ0.nodes.contains x = true := (hw0.hasEdge_nodes hEx).2.2
    have hw1 : SWF (σ.rewire1 f t x) := hw.rewire1 (by rw [hr.nodes]; exact ht) (by rw [hr.nodes]; exact hcx)
    have hk : ∀ n, σ.key? n = σ0.key? n := fun n => by simp [Spec.key?, hr.nodes]
    have A01 := Adv.trans h0 ha A1 hk (fun n => by simp [Spec.key?, Spec.rewire1_nodes]) r2
    obtain ⟨g2, σ2, e2, q1, q2, q3⟩ := ih (fun g σ y hy => step g σ y (by simp [hy])) (L ++ [x]) g1 _ r1 A01 hw1
      (by simpa using hnd) (by simpa using hE)
    exact ⟨g2, σ2, by simp [e1, e2], by simpa using q1, q2, q3⟩

/-! ## The whole operation -/

theorem find?_foldl_emplace {K V α : Type} [DecidableEq K] [OKey K] (κ : α → K) (ν : α → V) (l : List α) (m : OMap K V) (key : K) :
    (l.foldl (fun m e => m.emplace (κ e) (ν e)) m).find? key =
      (m.find? key).or ((l.find? (fun e => κ e == key)).map ν) := by
  induction l generalizing m with
  | nil => simp
  | cons a l ih =>
    simp only [List.foldl_cons, ih, OMap.find?_emplace, List.find?_cons]
    by_cases e : κ a = key
    · subst e
      simp only [beq_self_eq_true, Option.map_some]
      cases m.find? (κ a) <;> simp
    · simp only [e, beq_eq_false_iff_ne.2 e]
      cases m.find? key <;> simp

theorem Spec.find?_mergedEdges (f t : NodeId) (key : EdgeKey) :
    (σ.mergedEdges f t).find? key = (if key.has f then none else σ.edges.find? key).or
      (((σ.edges.toList.filter (fun e => e.1.has f && e.1.other f != t)).find?
        (fun e => EdgeKey.of t (e.1.other f) == key)).map (fun e => ⟨t, e.1.other f, e.2.attrs⟩)) := by
  rw [Spec.mergedEdges, find?_foldl_emplace]
  congr 1
  rw [OMap.find?_filter]
  cases key.has f <;> cases σ.edges.find? key <;> simp

/-- After all edges of `f` were moved, the abstract state is the specified one. -/
theorem Rewired.final {σ0 σ : Spec} (hw : SWF σ0) {f t : NodeId} {L : List NodeId} (h : Rewired σ0 f t L σ) (hft : f ≠ t)
    (hL : ∀ x, x ∈ L ↔ σ0.hasEdge f x = true) {kf : LayerKey} (hkf : σ0.key? f = some kf) (hkt : σ0.key? t = some kf) :
    { σ with nodes := σ.nodes.erase f } = (σ0.mergeNodes f t).1 := by
  have hne : ∀ y, σ0.hasEdge f y = true → y ≠ f := fun y hy => Ne.symm (hw.hasEdge_nodes hy).1
  simp only [Spec.mergeNodes, hft, if_false, hkf, hkt, ne_eq, not_true]
  apply Spec.ext' <;> simp only [h.layerIds, h.dyn, h.mesh, h.nodes]
  · apply OMap.ext; intro key
    rw [Spec.find?_mergedEdges]
    cases hfd : (σ0.edges.toList.filter (fun e => e.1.has f && e.1.other f != t)).find?
        (fun e => EdgeKey.of t (e.1.other f) == key) with
    | some e =>
      have h1 := List.find?_some hfd
      have h2 := List.mem_of_find?_eq_some hfd
      simp only [List.mem_filter, Bool.and_eq_true, bne_iff_ne, ne_eq, beq_iff_eq] at h1 h2
      obtain ⟨h2, h3, h4⟩ := h2
      have he := OMap.mem_toList.1 h2
      have hk := EdgeKey.exists_of e.1 (hw.key_of he) f h3
      obtain ⟨x, hxe⟩ : ∃ x, x = e.1.other f := ⟨_, rfl⟩
      rw [← hxe] at h1 h4 hk
      have hEx : σ0.hasEdge f x = true := by
        rw [Spec.hasEdge, ← hk]; exact OMap.contains_eq_true.2 ⟨_, he⟩
      have hxf := hne x hEx
      have hkey : key.has f = false := by rw [← h1]; exact EdgeKey.has_ne (Ne.symm hft) hxf
      rw [← h1, h.moved x ((hL x).2 hEx) h4]
      rw [← h1] at hkey
      have hat : σ0.attrsOf f x = e.2.attrs := by simp [Spec.attrsOf, Spec.edge?, ← hk, he]
      simp [hkey, hat, ← hxe]
    | none =>
      rw [List.find?_eq_none] at hfd
      have hnx : ∀ x ∈ L, x ≠ t → EdgeKey.of t x ≠ key := by
        intro x hx hxt e
        have hE := (hL x).1 hx
        obtain ⟨ei, he⟩ := OMap.contains_eq_true.1 hE
        have := hfd (EdgeKey.of f x, ei) (by
          rw [List.mem_filter]
          exact ⟨OMap.mem_toList.2 he, by simp [EdgeKey.has_of_left, EdgeKey.other_of_left, hxt]⟩)
        apply this
        simp [EdgeKey.other_of_left, e]
      cases hkf' : key.has f with
      | true =>
        simp only [if_true, Option.map_none, Option.or_none]
        by_cases hkL : ∃ x ∈ L, EdgeKey.of f x = key
        · obtain ⟨x, hx, rfl⟩ := hkL; exact h.gone x hx
        · have hkL' : ∀ x ∈ L, EdgeKey.of f x ≠ key := fun x hx e => hkL ⟨x, hx, e⟩
          rw [h.other key hkL' hnx]
          cases he : σ0.edges.find? key with
          | none => rfl
          | some e =>
            exfalso
            have hk := EdgeKey.exists_of key (hw.key_of he) f hkf'
            refine hkL ⟨key.other f, (hL _).2 ?_, hk.symm⟩
            rw [Spec.hasEdge, ← hk]; exact OMap.contains_eq_true.2 ⟨_, he⟩
      | false =>
        simp only [Bool.false_eq_true, if_false, Option.map_none, Option.or_none]
        refine h.other key ?_ hnx
        rintro x hx rfl
        rw [EdgeKey.has_of_left] at hkf'; cases hkf'
  · apply OMap.ext; intro key
    rw [h.marks, Spec.mergedMarks, OMap.find?_filter]
    cases hm : σ0.marks.find? key with
    | none => simp
    | some p =>
      have hck := hw.marks key p hm
      have hany : (L.any (fun x => EdgeKey.of f x == key && t != x && !σ0.hasEdge t x && decide (some p = σ0.placeOf key))) =
          (key.has f && σ0.edges.contains key && key.other f != t && !σ0.hasEdge t (key.other f) && decide (some p = σ0.placeOf key)) := by
        rw [Bool.eq_iff_iff]
        simp only [List.any_eq_true, Bool.and_eq_true, beq_iff_eq, bne_iff_ne, ne_eq, Bool.not_eq_true']
        constructor
        · rintro ⟨x, hx, ⟨⟨⟨rfl, h2⟩, h3⟩, h4⟩⟩
          rw [EdgeKey.has_of_left, EdgeKey.other_of_left]
          exact ⟨⟨⟨⟨rfl, (hL x).1 hx⟩, Ne.symm h2⟩, h3⟩, h4⟩
        · rintro ⟨⟨⟨⟨h1, h2⟩, h3⟩, h4⟩, h5⟩
          have hk := EdgeKey.exists_of key hck f h1
          refine ⟨key.other f, (hL _).2 ?_, ⟨⟨hk.symm, Ne.symm h3⟩, h4⟩, h5⟩
          rw [Spec.hasEdge, ← hk]; exact h2
      rw [hany, Option.filter_some]
      cases (key.has f && σ0.edges.contains key && key.other f != t && !σ0.hasEdge t (key.other f) && decide (some p = σ0.placeOf key)) <;> simp

/-- Neighbour sets not touched by a loop. -/
theorem Rewired.nbrs {σ0 σ : Spec} {f t : NodeId} {L : List NodeId} (h : Rewired σ0 f t L σ) (hft : f ≠ t)
    (hLf : ∀ y ∈ L, y ≠ f) (P : LayerKey → Bool) (hP : ∀ y ∈ L, (σ0.key? y).any P = false) : σ.nbrs f P = σ0.nbrs f P := by
  apply OMap.set_ext; intro m
  have hk : σ.key? m = σ0.key? m := by simp [Spec.key?, h.nodes]
  rw [Spec.contains_nbrs, Spec.contains_nbrs, hk]
  cases hp : (σ0.key? m).any P with
  | false => rfl
  | true =>
    simp only [Bool.true_and, Spec.hasEdge, OMap.contains]
    rw [h.other]
    · intro y hy e
      have := of_inj_right e
      subst this
      rw [hP y hy] at hp; cases hp
    · intro y hy _ e; exact of_ne hft (hLf y hy) e.symm

theorem R.mergeNodes (h : R g σ) (hw : SWF σ) {f t : NodeId} (hc : σ.noCross f)
    (hs : ∀ l p, σ.key? f = some (.dyn l p) → f = t ∨ σ.key? t ≠ some (.dyn l p)) :
    ∃ g', g.mergeNodes f t = .ok (g', (σ.mergeNodes f t).2) ∧ Adv .merged g.view g'.view (σ.mergeNodes f t).1 ∧
      SWF (σ.mergeNodes f t).1 := by
  have triv : (σ.mergeNodes f t) = (σ, false) → (g.mergeNodes f t = .ok (g, false)) →
      ∃ g', g.mergeNodes f t = .ok (g', (σ.mergeNodes f t).2) ∧ Adv .merged g.view g'.view (σ.mergeNodes f t).1 ∧
      SWF (σ.mergeNodes f t).1 := by
    intro h1 h2; rw [h1]; exact ⟨g, h2, Adv.refl _ h, hw⟩
  cases hf : σ.nodes.find? f with
  | none =>
    have hk : σ.key? f = none := by simp [Spec.key?, hf]
    apply triv
    · simp only [Spec.mergeNodes, hk]; split <;> rfl
    · simp [Graph.mergeNodes, h.lookup', hk]
  | some i =>
  cases ht : σ.nodes.find? t with
  | none =>
    have hk : σ.key? t = none := by simp [Spec.key?, ht]
    have hk' := Spec.key?_eq hf
    apply triv
    · simp only [Spec.mergeNodes, hk, hk']; split <;> rfl
    · simp [Graph.mergeNodes, h.lookup', hk, hk']
  | some i' =>
  have kf := Spec.key?_eq hf
  have kt := Spec.key?_eq ht
  by_cases hft : f = t
  · apply triv
    · simp [Spec.mergeNodes, hft]
    · simp [Graph.mergeNodes, h.lookup', kf, kt, hft]
  by_cases hkk : ¬ i.key = i'.key
  · apply triv
    · simp [Spec.mergeNodes, hft, kf, kt, hkk]
    · simp [Graph.mergeNodes, h.lookup', kf, kt, hft, hkk]
  rw [Decidable.not_not] at hkk
  obtain ⟨lid, hl⟩ : ∃ lid, i.key = .static lid := by
    cases hk : i.key with
    | static lid => exact ⟨lid, rfl⟩
    | dyn l p =>
      rcases hs l p (by rw [kf, hk]) with h' | h'
      · exact absurd h' hft
      · exact absurd (by rw [kt, ← hkk, hk]) h'
  have getL : ∀ (g : Graph) (σ' : Spec), R g σ' → SWF σ' → σ'.nodes = σ.nodes →
      ∃ l : Layer, g.layers.find? lid = some l ∧ g.layerAt? i.key = some (.static l) ∧ l.nodes.find? f = some (σ'.mkNode f i) := by
    intro g σ' h1 hw1 hn1
    have hf1 : σ'.nodes.find? f = some i := by rw [hn1]; exact hf
    obtain ⟨b, hb⟩ := R.layerAt? h1 hw1 (Spec.key?_eq hf1)
    have hb' := hb
    rw [hl] at hb'
    simp only [Graph.layerAt?, Option.map_eq_some_iff] at hb'
    obtain ⟨l, hl1, rfl⟩ := hb'
    refine ⟨l, hl1, hb, ?_⟩
    have := RV.node_of h1 hf1
    rwa [Graph.view_node_of_layerAt? hb] at this
  let PC : LayerKey → Bool := fun k' => decide (k'.layer < i.key.layer)
  let PP : LayerKey → Bool := fun k' => decide (i.key.layer < k'.layer)
  let PS : LayerKey → Bool := fun k' => k'.layer == i.key.layer
  have htc : σ.nodes.contains t = true := OMap.contains_eq_true.2 ⟨_, ht⟩
  have hne : ∀ y, σ.hasEdge f y = true → y ≠ f := fun y hy => Ne.symm (hw.hasEdge_nodes hy).1
  -- one step of the interlayer loops
  have stepI : ∀ P : LayerKey → Bool, (∀ k, P k = true → k ≠ i.key) → ∀ (g : Graph) (σ' : Spec) (x : NodeId), x ∈ (σ.nbrs f P).keys →
      R g σ' → SWF σ' → σ'.nodes = σ.nodes → σ'.hasEdge f x = true →
      ∃ g', g.rewireInterlayerEdge f t x = .ok g' ∧ Adv .merged g.view g'.view (σ'.rewire1 f t x) := by
    intro P hP g1 σ1 x hx h1 hw1 hn1 hE1
    obtain ⟨hk, -⟩ := Spec.mem_nbrs.1 hx
    rw [Option.any_eq_true_iff_get] at hk
    obtain ⟨hk1, hk2⟩ := hk
    obtain ⟨k', hk'⟩ := Option.isSome_iff_exists.1 hk1
    obtain ⟨j, hj, rfl⟩ := Spec.exists_of_key? hk'
    have hPj : P j.key = true := by simpa [hk'] using hk2
    exact R.rewireInter h1 hw1 (by rw [hn1]; exact hf) (by rw [hn1]; exact ht) (by rw [hn1]; exact hj) hkk (Ne.symm (hP _ hPj)) hft hE1 _
  have lt3 : ∀ k : LayerKey, (PC k = true → PP k = false ∧ PS k = false) ∧ (PP k = true → PC k = false ∧ PS k = false) ∧
      (PC k = false → PP k = false → PS k = true) := by
    intro k
    simp only [PC, PP, PS, beq_iff_eq, beq_eq_false_iff_ne, decide_eq_true_eq, decide_eq_false_iff_not]
    rcases layer_cases k.layer i.key.layer with ⟨q, q1, q2⟩ | ⟨q, q1, q2⟩ | ⟨q, q1, q2⟩ <;> simp [q, q1, q2]
  have anyF : ∀ (P Q : LayerKey → Bool), (∀ k, P k = true → Q k = false) → ∀ m, (σ.key? m).any P = true → (σ.key? m).any Q = false := by
    intro P Q hPQ m hm
    cases hk : σ.key? m with
    | none => rfl
    | some k => rw [hk] at hm; simpa using hPQ k (by simpa using hm)
  have hPC : ∀ k, PC k = true → k ≠ i.key := by rintro k h1 rfl; simp [PC] at h1
  have hPP : ∀ k, PP k = true → k ≠ i.key := by rintro k h1 rfl; simp [PP] at h1
  -- parents
  obtain ⟨l0, g0l, -, hl0⟩ := getL g σ h hw rfl
  obtain ⟨g1, σ1, e1, r1, A1, w1⟩ := fold_rewire hft htc hw (fun g x => g.rewireInterlayerEdge f t x) .merged h
    (σ.nbrs f PP).keys (stepI PP hPP) [] g σ (Rewired.refl σ f t) (Adv.refl _ h) hw
    (by simpa using OMap.keys_nodup _) (by intro x hx; exact (Spec.mem_nbrs.1 (by simpa using hx)).2)
  rw [List.nil_append] at r1
  -- children
  obtain ⟨l1, g1l, -, hl1⟩ := getL g1 σ1 A1.r w1 r1.nodes
  have hnbC : σ1.nbrs f PC = σ.nbrs f PC := r1.nbrs hft (fun y hy => hne y (Spec.mem_nbrs.1 hy).2) PC
    (fun y hy => anyF PP PC (fun k hk => ((lt3 k).2.1 hk).1) y (Spec.mem_nbrs.1 hy).1)
  have nd2 : ((σ.nbrs f PP).keys ++ (σ.nbrs f PC).keys).Nodup := by
    rw [List.nodup_append]
    refine ⟨OMap.keys_nodup _, OMap.keys_nodup _, ?_⟩
    rintro a ha b hb rfl
    have := anyF PP PC (fun k hk => ((lt3 k).2.1 hk).1) a (Spec.mem_nbrs.1 ha).1
    rw [(Spec.mem_nbrs.1 hb).1] at this; cases this
  have hE2 : ∀ x ∈ (σ.nbrs f PP).keys ++ (σ.nbrs f PC).keys, σ.hasEdge f x = true := by
    intro x hx
    rcases List.mem_append.1 hx with hx | hx <;> exact (Spec.mem_nbrs.1 hx).2
  obtain ⟨g2, σ2, e2, r2, A2, w2⟩ := fold_rewire hft htc hw (fun g x => g.rewireInterlayerEdge f t x) .merged h
    (σ.nbrs f PC).keys (stepI PC hPC) _ g1 σ1 r1 A1 w1 nd2 hE2
  -- siblings
  obtain ⟨l2, g2l, g2b, hl2⟩ := getL g2 σ2 A2.r w2 r2.nodes
  have hnbS : σ2.nbrs f PS = σ.nbrs f PS := r2.nbrs hft (fun y hy => hne y (hE2 y hy)) PS (by
    intro y hy
    rcases List.mem_append.1 hy with hy | hy
    · exact anyF PP PS (fun k hk => ((lt3 k).2.1 hk).2) y (Spec.mem_nbrs.1 hy).1
    · exact anyF PC PS (fun k hk => ((lt3 k).1 hk).2) y (Spec.mem_nbrs.1 hy).1)
  have nd3 : ((σ.nbrs f PP).keys ++ (σ.nbrs f PC).keys ++ (σ.nbrs f PS).keys).Nodup := by
    rw [List.nodup_append]
    refine ⟨nd2, OMap.keys_nodup _, ?_⟩
    rintro a ha b hb rfl
    have h3 := (Spec.mem_nbrs.1 hb).1
    rcases List.mem_append.1 ha with ha | ha
    · rw [anyF PP PS (fun k hk => ((lt3 k).2.1 hk).2) a (Spec.mem_nbrs.1 ha).1] at h3; cases h3
    · rw [anyF PC PS (fun k hk => ((lt3 k).1 hk).2) a (Spec.mem_nbrs.1 ha).1] at h3; cases h3
  have hE3 : ∀ x ∈ (σ.nbrs f PP).keys ++ (σ.nbrs f PC).keys ++ (σ.nbrs f PS).keys, σ.hasEdge f x = true := by
    intro x hx
    rcases List.mem_append.1 hx with hx | hx
    · exact hE2 x hx
    · exact (Spec.mem_nbrs.1 hx).2
  let fb : BaseLayer → NodeId → Res BaseLayer := fun b x =>
    match b with
    | .static l => l.rewireEdge f x t x >>= fun r => .ok (.static r.1)
    | .dyn _ => .ub
  obtain ⟨g3, σ3, e3, r3, A3, w3⟩ := fold_rewire hft htc hw
    (fun g x => match g.layerAt? i.key with
      | none => Res.ub
      | some b => fb b x >>= fun b' => .ok (g.setLayer i.key b')) .merged h (σ.nbrs f PS).keys (by
      intro g' σ' x hx h1 hw1 hn1 hE1
      obtain ⟨hk, hEx⟩ := Spec.mem_nbrs.1 hx
      rw [Option.any_eq_true_iff_get] at hk
      obtain ⟨hk1, hk2⟩ := hk
      obtain ⟨k', hk'⟩ := Option.isSome_iff_exists.1 hk1
      have hkx : σ.key? x = some i.key := by
        rw [← kf]; apply hc x hEx; rw [hk', kf]; simpa [PS, hk'] using hk2
      obtain ⟨j, hj, hjk⟩ := Spec.exists_of_key? hkx
      obtain ⟨l', -, g'b, -⟩ := getL g' σ' h1 hw1 hn1
      obtain ⟨l'', e', A'⟩ := R.rewireWithin h1 hw1 (by rw [hn1]; exact hf) (by rw [hn1]; exact ht) (by rw [hn1]; exact hj) hkk hjk.symm hft hE1 g'b .merged
      exact ⟨g'.setLayer i.key (.static l''), by simp [g'b, fb, e'], A'⟩) _ g2 σ2 r2 A2 w2 nd3 hE3
  obtain ⟨b3, e3a, e3b, f3⟩ := fold_layer fb i.key (by
    intro b a b' hfb hfit
    cases b with
    | dyn d => simp [fb] at hfb
    | static l =>
      simp only [fb] at hfb
      cases hq : l.rewireEdge f a t a with
      | ub => simp [hq] at hfb
      | throw y => simp [hq] at hfb
      | ok r => simp only [hq, Res.bind_ok, Res.ok.injEq] at hfb; subst hfb; exact (fits_static _ _ _).1 hfit) _ g2 _ g2b g3 e3
  have foldS : ∀ (L : List NodeId) (l : Layer), foldRes fb (.static l) L =
      (foldRes (fun l x => (l.rewireEdge f x t x) >>= fun r => .ok r.1) l L >>= fun l => .ok (.static l)) := by
    intro L
    induction L with
    | nil => intro l; rfl
    | cons a L ih =>
      intro l
      simp only [foldRes_cons]
      show ((l.rewireEdge f a t a >>= fun r => .ok (BaseLayer.static r.1)) >>= _) = _
      cases l.rewireEdge f a t a with
      | ub => rfl
      | throw x => rfl
      | ok r => exact ih r.1
  rw [foldS] at e3a
  obtain ⟨l3, e3c, rfl⟩ : ∃ l3, foldRes (fun l x => (l.rewireEdge f x t x) >>= fun r => .ok r.1) l2 (σ.nbrs f PS).keys = .ok l3 ∧ b3 = .static l3 := by
    cases hq : foldRes (fun l x => (l.rewireEdge f x t x) >>= fun r => .ok r.1) l2 (σ.nbrs f PS).keys with
    | ub => rw [hq] at e3a; simp at e3a
    | throw x => rw [hq] at e3a; simp at e3a
    | ok l3 => rw [hq] at e3a; simp at e3a; exact ⟨l3, rfl, e3a.symm⟩
  have hfin := r3.final hw hft (by
    intro x
    constructor
    · exact hE3 x
    · intro hx
      have hmn := (hw.hasEdge_nodes hx).2.2
      rw [Spec.contains_of_key?] at hmn
      obtain ⟨km, hkm⟩ := Option.isSome_iff_exists.1 hmn
      simp only [List.mem_append, Spec.mem_nbrs, hkm, Option.any_some, hx, and_true]
      cases h1 : PC km with
      | true => simp
      | false =>
        cases h2 : PP km with
        | true => simp
        | false => right; exact (lt3 km).2.2 h1 h2) kf (by rw [kt, hkk])
  obtain ⟨l3', g3l, g3b, hl3⟩ := getL g3 σ3 A3.r w3 r3.nodes
  have hll : l3' = l3 := by
    rw [e3b, Graph.layerAt?_setLayer' f3] at g3b
    simp only [if_true, Option.some.injEq, BaseLayer.static.injEq] at g3b
    exact g3b.symm
  subst hll
  have hE0 : ∀ m, σ3.hasEdge f m = false := by
    intro m
    cases hm : σ3.hasEdge f m with
    | false => rfl
    | true =>
      have h0 : σ3.edges.find? (EdgeKey.of f m) = none := by
        by_cases hm0 : σ.hasEdge f m = true
        · apply r3.gone
          have hmn := (hw.hasEdge_nodes hm0).2.2
          rw [Spec.contains_of_key?] at hmn
          obtain ⟨km, hkm⟩ := Option.isSome_iff_exists.1 hmn
          simp only [List.mem_append, Spec.mem_nbrs, hkm, Option.any_some, hm0, and_true]
          cases h1 : PC km with
          | true => simp
          | false =>
            cases h2 : PP km with
            | true => simp
            | false => right; exact (lt3 km).2.2 h1 h2
        · rw [r3.other]
          · exact OMap.contains_eq_false.1 (Bool.not_eq_true _ ▸ hm0)
          · intro y hy e; have := of_inj_right e; subst this; exact hm0 (hE3 y hy)
          · intro y hy _ e; exact of_ne hft (hne y (hE3 y hy)) e.symm
      rw [Spec.hasEdge, OMap.contains, h0] at hm; cases hm
  have hf3 : σ3.nodes.find? f = some i := by rw [r3.nodes]; exact hf
  have hi3 : infoOk (BaseLayer.info (.static l3')) σ3 i.key := RV.info A3.r i.key _ (by simp [Graph.view, g3b])
  have A4 := R.delIn (g := g3) A3.r w3 hf3 hE0 (b := .static l3')
    (b' := .static { l3' with nodes := l3'.nodes.erase f, status := l3'.status.insert f .merged })
    (gone := .merged) g3b (by rw [hl]; trivial) rfl
    (by intro m; simp [BaseLayer.nd, OMap.find?_erase]) (by intro m; simp [BaseLayer.nst, OMap.find?_insert]) rfl
    (by rw [hl] at hi3 ⊢; exact hi3)
  rw [hfin] at A4
  have hres : (σ.mergeNodes f t).2 = true := by simp [Spec.mergeNodes, hft, kf, kt, hkk]
  have hA : Adv .merged g.view ({ g3.setLayer i.key (.static { l3' with nodes := l3'.nodes.erase f, status := l3'.status.insert f .merged }) with lookup := g3.lookup.erase f : Graph }).view (σ.mergeNodes f t).1 := by
    exact ⟨A4.r, A3.nlog.trans A4.nlog (by intro k m; left; rw [RV.hasN_eq h, RV.hasN_eq A3.r]; simp [Spec.key?, r3.nodes]),
      A3.elog.trans A4.elog (by
        intro c key; right
        simp only [View.hasE]
        have : g3.view.ec c = ({ g3.setLayer i.key (.static { l3' with nodes := l3'.nodes.erase f, status := l3'.status.insert f .merged }) with lookup := g3.lookup.erase f : Graph }).view.ec c := by
          have hfit : (BaseLayer.static { l3' with nodes := l3'.nodes.erase f, status := l3'.status.insert f .merged }).fits i.key := by rw [hl]; trivial
          have h1 : ∀ (G : Graph) q, ({ G with lookup := q } : Graph).view.ec = G.view.ec := fun _ _ => rfl
          refine Eq.trans ?_ (congrFun (h1 _ _) c).symm
          rw [Graph.view_setLayer hfit]
          simp only [View.setL]
          split
          · rename_i hcc; subst hcc; exact (R.ecWithin (g := g3) A3.r g3b : _ = l3'.edges)
          · rfl
        rw [this])⟩
  refine ⟨_, ?_, hA, ?_⟩
  rotate_left
  · rw [← hfin]
    have := w3.dropNode f
    have hdn : σ3.dropNode f = { σ3 with nodes := σ3.nodes.erase f } := by
      apply Spec.ext' <;> try rfl
      apply OMap.ext; intro key
      simp only [Spec.dropNode, OMap.find?_filter]
      cases he : σ3.edges.find? key with
      | none => rfl
      | some e =>
        cases hh : key.has f with
        | false => rfl
        | true =>
          exfalso
          have hk := EdgeKey.exists_of key (w3.key_of he) f hh
          have := hE0 (key.other f)
          rw [Spec.hasEdge, ← hk, OMap.contains, he] at this; cases this
    rw [← hdn]; exact this
  · rw [hres]
    have hkl : i.key.layer = lid := by rw [hl]; rfl
    have q1 : (σ.mkNode f i).parents.keys = (σ.nbrs f PP).keys := rfl
    have q2 : (σ1.mkNode f i).children.keys = (σ.nbrs f PC).keys := by rw [← hnbC]; rfl
    have q3 : (σ2.mkNode f i).siblings.keys = (σ.nbrs f PS).keys := by rw [← hnbS]; rfl
    have hht : l2.hasNode t = true := by
      have := RV.node_of A2.r (n := t) (i := i') (by rw [r2.nodes]; exact ht)
      rw [← hkk, Graph.view_node_of_layerAt? g2b] at this
      simp only [BaseLayer.nd] at this
      simp [Layer.hasNode, OMap.contains, this]
    simp only [Graph.mergeNodes, h.lookup', kf, kt, hft, if_false, ← hkk, ne_eq, not_true, hkl, g0l, Res.deref_some, Res.bind_ok, hl0,
      Res.at?_some, q1, e1, g1l, hl1, q2, e2, g2l, Layer.mergeNodes, hl2, hht, Bool.not_true, Bool.false_eq_true, q3, e3c, Res.pure_eq,
      Res.ok.injEq, Prod.mk.injEq, and_true]
    rw [e3b, hl]
    simp [Graph.setLayer, OMap.insert_insert]

end
end Verif
