import Verif.Lemmas.Mem
/-!
# No undefined behaviour: every graph operation a binary message can provoke
-/

namespace Verif
open Res (Sat)

/-! ## Edge containers -/

namespace EdgeContainer
theorem contains_insert (c : EdgeContainer) (s t : NodeId) (i : Option EdgeAttrs) (a b : NodeId) :
    (c.insert s t i).contains a b = (decide (EdgeKey.of s t = EdgeKey.of a b) || c.contains a b) := by
  simp only [insert, contains, OMap.contains, OMap.find?_emplace]
  by_cases e : EdgeKey.of s t = EdgeKey.of a b
  · rw [e]; cases c.edges.find? (EdgeKey.of a b) <;> simp
  · cases c.edges.find? (EdgeKey.of s t) <;> simp [e]
theorem contains_drop (c : EdgeContainer) (key : EdgeKey) (a b : NodeId) :
    (c.drop key).contains a b = (!decide (key = EdgeKey.of a b) && c.contains a b) := by
  simp only [drop, contains, OMap.contains_erase]
theorem contains_find (c : EdgeContainer) (s t a b : NodeId) : (c.find s t).1.contains a b = c.contains a b := by
  simp only [find, findKey]; cases c.edges.find? (EdgeKey.of s t) <;> rfl
theorem contains_setInfo (c : EdgeContainer) (k : EdgeKey) (i : Option EdgeAttrs) (a b : NodeId) :
    (c.setInfo k i).contains a b = c.contains a b := by
  simp only [setInfo]
  cases h : c.edges.find? k with
  | none => rfl
  | some e =>
    simp only [contains, OMap.contains, OMap.find?_insert]
    by_cases e' : k = EdgeKey.of a b
    · rw [← e', h]; simp
    · simp [e']
theorem contains_setStale (c : EdgeContainer) (a b : NodeId) : c.setStale.contains a b = c.contains a b := rfl
end EdgeContainer

/-- Adding an edge within a layer once both nodes know each other. -/
theorem MV.setE_insert {v : View} (h : MV v) {k : LayerKey} {s t : NodeId} {x y : Node} (hs : v.node k s = some x) (ht : v.node k t = some y)
    (hne : s ≠ t) (hx : x.siblings.contains t = true) (hy : y.siblings.contains s = true) (i : Option EdgeAttrs) :
    MV (v.setE (.within k) ((v.ec (.within k)).insert s t i)) where
  key := h.key
  live := h.live
  info := h.info
  stamp := h.stamp
  edge k' a b he := by
    simp only [View.setE] at he
    split at he
    · rename_i e
      cases e
      rw [EdgeContainer.contains_insert, Bool.or_eq_true] at he
      rcases he with he | he
      · rw [decide_eq_true_eq, EdgeKey.of_inj] at he
        rcases he with ⟨rfl, rfl⟩ | ⟨rfl, rfl⟩
        · exact ⟨hne, x, y, hs, ht, hx, hy⟩
        · exact ⟨Ne.symm hne, y, x, ht, hs, hy, hx⟩
      · exact h.edge k a b he
    · exact h.edge k' a b he
  child := h.child
  par := h.par

namespace Graph
variable {g : Graph}

theorem MV.blive (h : MV g.view) {k : LayerKey} {b : BaseLayer} (hb : g.layerAt? k = some b) : b.Live := by
  intro n
  have := h.live k n
  simpa [view, hb] using this

theorem view_ec_of_layerAt? {k : LayerKey} {b : BaseLayer} (hb : g.layerAt? k = some b) : g.view.ec (.within k) = b.ec := by
  simp [view, ecAt?, hb]

/-! ## Edges inside one layer -/

/-- The layer-level `insertEdge`. -/
theorem insertIn_sat (h : MV g.view) {k : LayerKey} {b : BaseLayer} (hb : g.layerAt? k = some b) (s t : NodeId) (i : Option EdgeAttrs) :
    Sat (fun r => r.1.fits k ∧ MV (g.setLayer k r.1).view ∧ (∀ n, n ≠ s → n ≠ t → r.1.nd n = b.nd n) ∧
      ∀ n c, n ≠ s → n ≠ t → r.1.ec.contains n c = b.ec.contains n c) (b.insertEdge s t i) := by
  have same : ∀ r : Bool, (b.fits k ∧ MV (g.setLayer k b).view ∧ (∀ n, n ≠ s → n ≠ t → b.nd n = b.nd n) ∧
      ∀ n c, n ≠ s → n ≠ t → b.ec.contains n c = b.ec.contains n c) :=
    fun _ => ⟨fits_of_layerAt? hb, by rw [setLayer_self hb]; exact h, fun _ _ _ => rfl, fun _ _ _ _ => rfl⟩
  have hl := MV.blive h hb
  by_cases hne : s = t
  · subst hne; exact .of_ok (b.insertEdge_self s i) (same false)
  by_cases he : b.ec.contains s t = true
  · exact .of_ok (BaseLayer.insertEdge_has he i) (same false)
  cases hs : b.nd s with
  | none => exact .of_ok (BaseLayer.insertEdge_missing hl (.inl hs) i) (same false)
  | some x =>
    cases ht : b.nd t with
    | none => exact .of_ok (BaseLayer.insertEdge_missing hl (.inr ht) i) (same false)
    | some y =>
      have he' : b.ec.contains s t = false := by simpa using he
      refine .of_ok (BaseLayer.insertEdge_ok hl hs ht hne he' i) ⟨?_, ?_, ?_, ?_⟩
      · simpa using fits_of_layerAt? hb
      · rw [view_two hb hs ht hne]
        have vs : g.view.node k s = some x := by rw [view_node_of_layerAt? hb]; exact hs
        have vt : g.view.node k t = some y := by rw [view_node_of_layerAt? hb]; exact ht
        have h1 : MV (g.view.setN k s (BaseLayer.addSib t x)) := h.setN vs rfl rfl rfl (by
          intro c _ hc; simp [BaseLayer.addSib, hc])
        have h2 : MV ((g.view.setN k s (BaseLayer.addSib t x)).setN k t (BaseLayer.addSib s y)) := h1.setN (x := y)
          (by simp [View.setN, hne, vt]) rfl rfl rfl (by intro c _ hc; simp [BaseLayer.addSib, hc])
        have := h2.setE_insert (k := k) (s := s) (t := t) (x := BaseLayer.addSib t x) (y := BaseLayer.addSib s y)
          (by simp [View.setN, Ne.symm hne]) (by simp [View.setN]) hne (by simp [BaseLayer.addSib]) (by simp [BaseLayer.addSib]) i
        rw [← view_ec_of_layerAt? hb]
        exact this
      · intro n h1 h2
        rw [BaseLayer.nd_setEc, BaseLayer.nd_setNode (y := y), if_neg (Ne.symm h2), BaseLayer.nd_setNode hs, if_neg (Ne.symm h1)]
        rw [BaseLayer.nd_setNode hs, if_neg hne]; exact ht
      · intro n c h1 h2
        rw [BaseLayer.ec_setEc, EdgeContainer.contains_insert]
        have : EdgeKey.of s t ≠ EdgeKey.of n c := by
          rw [Ne, EdgeKey.of_inj]; rintro (⟨rfl, rfl⟩ | ⟨rfl, rfl⟩)
          · exact h1 rfl
          · exact h2 rfl
        simp [this]

/-- The layer-level `removeEdge`. -/
theorem removeIn_sat (h : MV g.view) {k : LayerKey} {b : BaseLayer} (hb : g.layerAt? k = some b) (s t : NodeId) :
    Sat (fun r => r.1.fits k ∧ MV (g.setLayer k r.1).view ∧
      (∀ n x, b.nd n = some x → ∃ x', r.1.nd n = some x' ∧ x'.parents = x.parents ∧ x'.children = x.children) ∧
      r.1.ec.contains s t = false ∧ ∀ a c, r.1.ec.contains a c = true → b.ec.contains a c = true) (b.removeEdge s t) := by
  cases he : b.ec.contains s t with
  | false =>
    have : b.removeEdge s t = .ok (b, false) := by
      cases b <;> simp only [BaseLayer.ec] at he <;>
        simp [BaseLayer.removeEdge, Layer.removeEdge, DynLayer.removeEdge, Layer.hasEdge, DynLayer.hasEdge, he]
    exact .of_ok this ⟨fits_of_layerAt? hb, by rw [setLayer_self hb]; exact h, fun _ x hx => ⟨x, hx, rfl, rfl⟩, he, fun _ _ h => h⟩
  | true =>
    have he1 := he
    rw [← view_ec_of_layerAt? hb] at he1
    obtain ⟨hne, x, y, vs, vt, -, -⟩ := h.edge k s t he1
    have hs : b.nd s = some x := by rw [← view_node_of_layerAt? hb]; exact vs
    have ht : b.nd t = some y := by rw [← view_node_of_layerAt? hb]; exact vt
    cases hz : b.ec.status.find? (EdgeKey.of s t) with
    | none =>
      refine .of_throw ⟨.outOfRange, ?_⟩
      have ht' := fun z => (BaseLayer.nd_setNode hs z t).trans (by simp [hne, ht] : _ = some y)
      cases b with
      | static l =>
        obtain ⟨l1, e1, e1'⟩ := BaseLayer.modNode_eq hs (fun x => { x with siblings := x.siblings.erase t })
        obtain ⟨l2, e2, e2'⟩ := BaseLayer.modNode_eq (l := l1) (n := t) (x := y) (by rw [e1']; exact ht' _) (fun x => { x with siblings := x.siblings.erase s })
        simp only [BaseLayer.ec] at he hz
        have he' : l2.edges = l.edges := by
          have : (BaseLayer.static l2).ec = (BaseLayer.static l).ec := by rw [e2', e1']; simp
          exact this
        simp only [BaseLayer.removeEdge, Layer.removeEdge, Layer.hasEdge, he]
        simp only [Bool.not_true, Bool.false_eq_true, if_false, e1, e2, Res.bind_ok, he', EdgeContainer.remove, hz, Res.at?_none, Res.bind_throw]
      | dyn d =>
        obtain ⟨l1, e1, e1', p1⟩ := BaseLayer.modIdx_eq hs (fun x => { x with siblings := x.siblings.erase t })
        obtain ⟨l2, e2, e2', p2⟩ := BaseLayer.modIdx_eq (d := l1) (n := t) (x := y) (by rw [e1']; exact ht' _) (fun x => { x with siblings := x.siblings.erase s })
        simp only [BaseLayer.ec] at he hz
        have he' : l2.edges = d.edges := by
          have : (BaseLayer.dyn l2).ec = (BaseLayer.dyn d).ec := by rw [e2', e1']; simp
          exact this
        simp only [BaseLayer.removeEdge, DynLayer.removeEdge, DynLayer.hasEdge, he]
        simp only [Bool.not_true, Bool.false_eq_true, if_false, e1, e2, Res.bind_ok, he', EdgeContainer.remove, hz, Res.at?_none, Res.bind_throw]
    | some z =>
      refine .of_ok (BaseLayer.removeEdge_ok hs ht hne he hz) ⟨by simpa using fits_of_layerAt? hb, ?_, ?_, ?_, ?_⟩
      · rw [view_two hb hs ht hne]
        have h0 : MV (g.view.setE (.within k) (b.ec.drop (EdgeKey.of s t))) := h.setE _ _ (by
          intro k' a c e hc
          cases e
          rw [EdgeContainer.contains_drop] at hc
          rw [view_ec_of_layerAt? hb]
          simp only [Bool.and_eq_true] at hc; exact hc.2)
        have hno : ∀ a c, EdgeKey.of s t = EdgeKey.of a c → ((g.view.setE (.within k) (b.ec.drop (EdgeKey.of s t))).ec (.within k)).contains a c = false := by
          intro a c e
          simp only [View.setE, if_true, EdgeContainer.contains_drop]; simp [e]
        have h1 : MV ((g.view.setE (.within k) (b.ec.drop (EdgeKey.of s t))).setN k s (BaseLayer.delSib t x)) := h0.setN vs rfl rfl rfl (by
          intro c hc hc'
          have : t ≠ c := by rintro rfl; rw [hno _ _ rfl] at hc; cases hc
          simp [BaseLayer.delSib, OMap.contains_erase, hc', this])
        have h2 := h1.setN (k := k) (n := t) (x := y) (y := BaseLayer.delSib s y)
          (by simp [View.setN, hne]; exact vt) rfl rfl rfl (by
            intro c hc hc'
            have hc : ((g.view.setE (.within k) (b.ec.drop (EdgeKey.of s t))).ec (.within k)).contains t c = true := hc
            have : s ≠ c := by rintro rfl; rw [hno _ _ (EdgeKey.of_comm _ _)] at hc; cases hc
            simp [BaseLayer.delSib, OMap.contains_erase, hc', this])
        exact h2
      · intro n w hw
        have hts : (b.setNode s (BaseLayer.delSib t x)).nd t = some y := by rw [BaseLayer.nd_setNode hs, if_neg hne]; exact ht
        rw [BaseLayer.nd_setEc, BaseLayer.nd_setNode hts]
        split
        · rename_i e; subst e; rw [ht] at hw; cases hw; exact ⟨_, rfl, rfl, rfl⟩
        · rw [BaseLayer.nd_setNode hs]
          split
          · rename_i e; subst e; rw [hs] at hw; cases hw; exact ⟨_, rfl, rfl, rfl⟩
          · exact ⟨w, hw, rfl, rfl⟩
      · simp [EdgeContainer.contains_drop]
      · intro a c hc
        rw [BaseLayer.ec_setEc, EdgeContainer.contains_drop, Bool.and_eq_true] at hc
        exact hc.2

/-! ## Edges -/

theorem layerAt?_of_key (h : MV g.view) {n : NodeId} {k : LayerKey} (hn : g.lookup.find? n = some k) : ∃ b, g.layerAt? k = some b := by
  have := (h.key n k).1 hn
  obtain ⟨x, hx⟩ := Option.isSome_iff_exists.1 this
  obtain ⟨b, hb, -⟩ := layerAt?_of_view_node hx
  exact ⟨b, hb⟩

theorem hasEdgeKeys_sat (h : MV g.view) (s t : NodeId) :
    Sat (fun r => (r.2 = (.unknown, .unknown)) ∨ (g.lookup.find? s = some r.2.1 ∧ g.lookup.find? t = some r.2.2)) (g.hasEdgeKeys s t) := by
  unfold hasEdgeKeys
  cases hs : g.lookup.find? s with
  | none => exact .inl rfl
  | some ks =>
    cases ht : g.lookup.find? t with
    | none => exact .inl rfl
    | some kt =>
      simp only
      split
      · obtain ⟨b, hb⟩ := layerAt?_of_key h hs
        rw [layerFromKey_eq hb]
        exact .inr ⟨rfl, rfl⟩
      · split <;> exact .inr ⟨rfl, rfl⟩

theorem insertEdge_sat (h : MV g.view) (s t : NodeId) (i : Option EdgeAttrs) : Sat (fun r => MV r.1.view) (g.insertEdge s t i) := by
  unfold insertEdge
  refine (hasEdgeKeys_sat h s t).bind ?_
  rintro ⟨has, ks, kt⟩ hk
  simp only
  split
  · exact h
  split
  · exact h
  rename_i _ hv
  have hk : g.lookup.find? s = some ks ∧ g.lookup.find? t = some kt := by
    rcases hk with hk | hk
    · cases hk; exact (hv (by decide)).elim
    · exact hk
  split
  · rename_i e; subst e
    obtain ⟨b, hb⟩ := layerAt?_of_key h hk.1
    rw [layerFromKey_eq hb]
    exact (insertIn_sat h hb s t _).bind (fun r hr => hr.2.1)
  · rename_i e
    have hne : s ≠ t := by rintro rfl; rw [hk.1] at hk; exact e (Option.some.inj hk.2)
    refine (addAncestry_sat h.mw hk.1 hk.2 hne).bind ?_
    rintro g' ⟨x, y, hx, hy, v⟩
    show MV (insertInterlayer g' s t ks kt _).view
    rw [view_insertInterlayer e, v]
    refine (h.link hx hy e).setE _ _ ?_
    intro k' a b e'
    simp only [place, e, if_false] at e'; cases e'

theorem view_remove (g : Graph) (s t : NodeId) (d : Bool) (c : EdgeContainer) (hc : (g.view.ec (.across d)).remove s t = .ok c) :
    ((if d then { g with dynInter := c } else { g with inter := c } : Graph)).view = g.view.setE (.across d) c := by
  cases d
  · exact view_inter g c
  · exact view_dynInter g c

theorem removeInter_sat (h : MV g.view) {s t : NodeId} {ks kt : LayerKey} (hs : g.lookup.find? s = some ks) (ht : g.lookup.find? t = some kt)
    (e : ks ≠ kt) : Sat (fun g' => MV g'.view ∧ (∀ m, g'.lookup.find? m = g.lookup.find? m) ∧
      ∃ x, g.view.node ks s = some x ∧ g'.view.node ks s = some (x.unlink ks kt t)) (g.removeInterlayerEdge s t ks kt) := by
  have hne : s ≠ t := by rintro rfl; rw [hs] at ht; exact e (Option.some.inj ht)
  unfold removeInterlayerEdge
  refine (removeAncestry_sat h.mw hs ht hne).bind ?_
  rintro g' ⟨x, y, hx, hy, v⟩
  have h1 : MV g'.view := by rw [v]; exact h.unlink hx hy e
  have h2 : ∀ m, g'.lookup.find? m = g.lookup.find? m := by intro m; rw [lookup_of_view v]; rfl
  have h3 : g'.view.node ks s = some (x.unlink ks kt t) := by rw [v]; simp [View.setN, Ne.symm hne]
  split
  · cases hr : g'.dynInter.remove s t with
    | ok c =>
      refine ⟨?_, h2, x, hx, ?_⟩
      · rw [view_dynInter]; exact h1.setE _ _ (by intro k' a b e'; cases e')
      · rw [view_dynInter]; exact h3
    | throw e => trivial
    | ub => simp [EdgeContainer.remove] at hr; cases q : g'.dynInter.status.find? (EdgeKey.of s t) <;> simp [q] at hr
  · cases hr : g'.inter.remove s t with
    | ok c =>
      refine ⟨?_, h2, x, hx, ?_⟩
      · rw [view_inter]; exact h1.setE _ _ (by intro k' a b e'; cases e')
      · rw [view_inter]; exact h3
    | throw e => trivial
    | ub => simp [EdgeContainer.remove] at hr; cases q : g'.inter.status.find? (EdgeKey.of s t) <;> simp [q] at hr

theorem removeEdge_sat (h : MV g.view) (s t : NodeId) : Sat (fun r => MV r.1.view) (g.removeEdge s t) := by
  unfold removeEdge
  refine (hasEdgeKeys_sat h s t).bind ?_
  rintro ⟨has, ks, kt⟩ hk
  simp only
  split
  · exact h
  split
  · exact h
  rename_i _ hv
  have hk : g.lookup.find? s = some ks ∧ g.lookup.find? t = some kt := by
    rcases hk with hk | hk
    · cases hk; exact (hv (by decide)).elim
    · exact hk
  split
  · rename_i e; subst e
    obtain ⟨b, hb⟩ := layerAt?_of_key h hk.1
    rw [layerFromKey_eq hb]
    exact (removeIn_sat h hb s t).bind (fun r hr => hr.2.1)
  · rename_i e
    exact (removeInter_sat h hk.1 hk.2 e).bind (fun r hr => hr.1)

theorem findEdgeIn_sat (h : MV g.view) {s t : NodeId} {ks kt : LayerKey} (hs : g.lookup.find? s = some ks) :
    Sat (fun r => MV r.1.view ∧ ∀ m, r.1.lookup.find? m = g.lookup.find? m) (g.findEdgeIn s t ks kt) := by
  unfold findEdgeIn
  split
  · obtain ⟨b, hb⟩ := layerAt?_of_key h hs
    rw [layerFromKey_eq hb]
    refine ⟨?_, fun m => by simp⟩
    show MV (g.setLayer ks (b.setEc _)).view
    rw [view_setLayer (by simpa using fits_of_layerAt? hb), setL_setEc hb]
    refine h.setE _ _ ?_
    intro k' a c e hc
    rw [EdgeContainer.contains_find] at hc
    rw [view_ec_of_layerAt? hb]; exact hc
  · split
    · refine ⟨?_, fun m => rfl⟩
      show MV ({ g with dynInter := _ } : Graph).view
      rw [view_dynInter]; exact h.setE _ _ (by intro k' a b e'; cases e')
    · refine ⟨?_, fun m => rfl⟩
      show MV ({ g with inter := _ } : Graph).view
      rw [view_inter]; exact h.setE _ _ (by intro k' a b e'; cases e')

theorem setInfoIn_sat (h : MV g.view) {s t : NodeId} {ks kt : LayerKey} (hs : g.lookup.find? s = some ks) (i : Option EdgeAttrs) :
    Sat (fun g' => MV g'.view) (g.setInfoIn s t ks kt i) := by
  unfold setInfoIn
  split
  · obtain ⟨b, hb⟩ := layerAt?_of_key h hs
    rw [layerFromKey_eq hb]
    show MV (g.setLayer ks (b.setEc _)).view
    rw [view_setLayer (by simpa using fits_of_layerAt? hb), setL_setEc hb]
    refine h.setE _ _ ?_
    intro k' a c e hc
    rw [EdgeContainer.contains_setInfo] at hc
    rw [view_ec_of_layerAt? hb]; exact hc
  · split
    · show MV ({ g with dynInter := _ } : Graph).view
      rw [view_dynInter]; exact h.setE _ _ (by intro k' a b e'; cases e')
    · show MV ({ g with inter := _ } : Graph).view
      rw [view_inter]; exact h.setE _ _ (by intro k' a b e'; cases e')

theorem setEdgeAttributes_sat (h : MV g.view) (s t : NodeId) (i : Option EdgeAttrs) : Sat (fun r => MV r.1.view) (g.setEdgeAttributes s t i) := by
  unfold setEdgeAttributes
  refine Sat.at? (fun ks hs => Sat.at? (fun kt ht => ?_))
  refine (findEdgeIn_sat h hs).bind ?_
  rintro ⟨g1, e⟩ ⟨h1, h2⟩
  cases e with
  | none => exact h1
  | some e => exact (setInfoIn_sat h1 ((h2 s).trans hs) i).bind (fun a ha => ha)

theorem addOrUpdateEdge_sat (h : MV g.view) (s t : NodeId) (i : Option EdgeAttrs) : Sat (fun r => MV r.1.view) (g.addOrUpdateEdge s t i) := by
  unfold addOrUpdateEdge hasEdge
  refine Sat.bind (P := fun _ => True) (Sat.bind (hasEdgeKeys_sat h s t) (fun r _ => ?_)) (fun b _ => ?_)
  · exact (trivial : Sat (fun _ => True) (Res.ok r.1))
  split
  · exact setEdgeAttributes_sat h s t i
  · exact insertEdge_sat h s t i

theorem markEdgesAsStale_mv (h : MV g.view) : MV g.markEdgesAsStale.view := by
  rw [markEdgesAsStale_view]
  exact ⟨h.key, h.live, h.info, h.stamp, h.edge, h.child, h.par⟩

theorem removeStaleEdges_sat (h : MV g.view) (m : OMap EdgeKey Bool) : Sat (fun g' => MV g'.view) (g.removeStaleEdges m) := by
  unfold removeStaleEdges
  refine Sat.fold ?_ _ h
  intro g e hg
  split
  · exact (removeEdge_sat hg _ _).bind (fun r hr => hr)
  · exact hg

theorem removeAllStaleEdges_sat (h : MV g.view) : Sat (fun g' => MV g'.view) g.removeAllStaleEdges := by
  unfold removeAllStaleEdges
  refine (Sat.fold (P := fun g : Graph => MV g.view) ?_ _ h).bind (fun g1 h1 => ?_)
  · intro g l hg
    unfold removeStaleStatic
    cases g.layers.find? l with
    | none => exact hg
    | some x => exact removeStaleEdges_sat hg _
  refine (Sat.fold (P := fun g : Graph => MV g.view) ?_ _ h1).bind (fun g2 h2 => ?_)
  · intro g l hg
    unfold removeStaleDyn
    cases g.dynLayer? l.1 l.2 with
    | none => exact hg
    | some x => exact removeStaleEdges_sat hg _
  exact (removeStaleEdges_sat h2 _).bind (fun g3 h3 => removeStaleEdges_sat h3 _)

end Graph
end Verif
