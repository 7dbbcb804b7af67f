import Verif.Lemmas.Merge
/-! # The loop iterations of `mergeGraph`, one by one -/

namespace Verif

section
variable {g : Graph} {σ : Spec} {P : MergePar}

theorem ans_ok {r : Res (Graph × Bool)} {g' : Graph} {b : Bool} (h : r = .ok (g', b)) : Graph.ans r = .ok (g', .bool b) := by rw [h]; rfl

/-- a layer's `hasEdge`, in terms of the abstract graph -/
theorem R.layer_hasEdge (h : R g σ) (hw : SWF σ) {k : LayerKey} {b : BaseLayer} (hb : g.layerAt? k = some b) (s t : NodeId) :
    b.hasEdge s t = decide (σ.key? s = some k ∧ σ.key? t = some k ∧ σ.hasEdge s t = true) := by
  rw [BaseLayer.hasEdge_eq]
  by_cases hin : σ.key? s = some k ∧ σ.key? t = some k
  · have hc := RV.contains_eq h hin.1 hin.2
    simp only [place, if_true] at hc
    rw [h.ecWithin hb] at hc
    rw [hc]
    simp [hin]
  · have he := (RV.ec h (.within k)).edges (EdgeKey.of s t)
    rw [h.ecWithin hb] at he
    have : b.ec.contains s t = false := by
      refine OMap.contains_eq_false.2 ?_
      rw [he]
      unfold Spec.edgeRec
      cases hx : σ.edges.find? (EdgeKey.of s t) with
      | none => rfl
      | some i =>
        simp only [Option.bind_some]
        rw [if_neg]
        intro hp
        obtain ⟨-, h1, h2⟩ := hw.hasEdge_nodes (show σ.hasEdge s t = true from OMap.contains_eq_true.2 ⟨i, hx⟩)
        obtain ⟨k1, h1⟩ := Spec.key_of_contains h1
        obtain ⟨k2, h2⟩ := Spec.key_of_contains h2
        rw [Spec.placeOf_of h1 h2] at hp
        unfold place at hp
        split at hp
        · rename_i hkk
          injection hp with hp
          injection hp with hp
          rw [h1, h2, ← hkk, hp] at hin
          simp at hin
        · cases hp
    rw [this]
    symm
    rw [decide_eq_false_iff_not]
    exact fun h => hin ⟨h.1, h.2.1⟩

theorem SWF.valid_key (hw : SWF σ) {n : NodeId} {k : LayerKey} (h : σ.key? n = some k) : k.valid = true := by
  obtain ⟨i, hi, rfl⟩ := Spec.exists_of_key? h
  exact (hw.node n i hi).2

/-- One iteration of an edge loop, on any layer. -/
def BaseLayer.mergeEdge (b : BaseLayer) (s t s' t' : NodeId) (a : EdgeAttrs) : Res BaseLayer :=
  if b.hasEdge s t then .ok b else if s' = t' then .ok b else b.insertEdge s' t' (some a) >>= fun r => .ok r.1

theorem R.mergeEdge (h : R g σ) (hw : SWF σ) {k : LayerKey} {b : BaseLayer} (hb : g.layerAt? k = some b) (s t s' t' : NodeId) (a : EdgeAttrs) :
    ∃ b', b.mergeEdge s t s' t' a = .ok b' ∧ b'.fits k ∧ Does g σ (plan P σ (.edge k s t s' t' a)) (g.setLayer k b') := by
  have hfits := Graph.fits_of_layerAt? hb
  have hself := Graph.setLayer_self hb
  have hnil : Does g σ [] (g.setLayer k b) := by rw [hself]; exact .nil h hw
  unfold BaseLayer.mergeEdge
  rw [plan_edge]
  rw [h.layer_hasEdge hw hb]
  by_cases h1 : σ.key? s = some k ∧ σ.key? t = some k ∧ σ.hasEdge s t = true
  · rw [if_pos (decide_eq_true h1), if_pos h1]
    exact ⟨b, rfl, hfits, hnil⟩
  · rw [if_neg (by simpa using h1), if_neg h1]
    by_cases h2 : s' = t'
    · rw [if_pos h2, if_pos h2]; exact ⟨b, rfl, hfits, hnil⟩
    · rw [if_neg h2, if_neg h2]
      by_cases h3 : σ.key? s' = some k ∧ σ.key? t' = some k
      · rw [if_pos h3]
        have hv := hw.valid_key h3.1
        have hstep : ∀ b' r, b.insertEdge s' t' (some a) = .ok (b', r) → σ.hasEdge s' t' = false →
            g.step (.insertEdge s' t' (some a)) = .ok (g.setLayer k b', .bool r) := by
          intro b' r he hf
          refine ans_ok ?_
          simp [Graph.insertEdge, h.hasEdgeKeys hw h3.1 h3.2, hf, hv, Graph.layerFromKey_eq hb, he]
        cases hf : σ.hasEdge s' t' with
        | true =>
          refine ⟨b, ?_, hfits, ?_⟩
          · have : b.insertEdge s' t' (some a) = .ok (b, false) := by
              have hh := h.layer_hasEdge hw hb s' t'
              rw [decide_eq_true ⟨h3.1, h3.2, hf⟩] at hh
              cases b with
              | static x => simp only [BaseLayer.insertEdge, Layer.insertEdge, show x.hasEdge s' t' = true from hh, if_neg h2, if_true, Res.bind_ok]
              | dyn x => simp only [BaseLayer.insertEdge, DynLayer.insertEdge, show x.hasEdge s' t' = true from hh, if_neg h2, if_true, Res.bind_ok]
            rw [this]; rfl
          · rw [hself]
            refine .one h hw rfl (out := .bool false) (ans_ok ?_)
            simp [Graph.insertEdge, h.hasEdgeKeys hw h3.1 h3.2, hf]
        | false =>
          obtain ⟨b', r, he, hf', -⟩ := h.layer_insert_any hb s' t' (some a) .deleted h2 hf
          rw [he]
          exact ⟨b', rfl, hf', .one h hw rfl (hstep b' r he hf)⟩
      · rw [if_neg h3]
        refine ⟨b, ?_, hfits, hnil⟩
        rw [BaseLayer.insertEdge_missing (h.blive hb) ?_ (some a)]
        · rfl
        · have hnd : ∀ n, σ.key? n ≠ some k → b.nd n = none := by
            intro n hn
            rw [← Graph.view_node_of_layerAt? hb]
            have := RV.hasN_eq h k n
            simp only [hn, decide_false] at this
            simpa using this
          by_cases h4 : σ.key? s' = some k
          · exact .inr (hnd t' (fun h5 => h3 ⟨h4, h5⟩))
          · exact .inl (hnd s' h4)

/-- Removing a reported edge from a static layer. -/
theorem R.mergeRemovedEdge {l : LayerId} {x : Layer} (h : R g σ) (hw : SWF σ) (hx : g.layers.find? l = some x) (k : EdgeKey) :
    ∃ y, Graph.mergeRemovedEdge x k = .ok y ∧
      Does g σ (plan P σ (.rmEdge l k.k1 k.k2)) (g.setLayer (.static l) (.static y)) := by
  have hb : g.layerAt? (.static l) = some (.static x) := by simp [Graph.layerAt?, hx]
  have hself := Graph.setLayer_self hb
  have hh := h.layer_hasEdge hw hb k.k1 k.k2
  have hh' : x.hasEdge k.k1 k.k2 = _ := hh
  unfold Graph.mergeRemovedEdge
  rw [plan_rmEdge]
  by_cases h1 : σ.key? k.k1 = some (.static l) ∧ σ.key? k.k2 = some (.static l)
  · rw [if_pos h1]
    cases hf : σ.hasEdge k.k1 k.k2 with
    | false =>
      refine ⟨x, ?_, ?_⟩
      · rw [decide_eq_false (by simp [hf])] at hh'
        simp [Layer.removeEdge, hh']
      · rw [hself]
        refine .one h hw rfl (out := .bool false) (ans_ok ?_)
        simp [Graph.removeEdge, h.hasEdgeKeys hw h1.1 h1.2, hf]
    | true =>
      obtain ⟨i, hi, hik⟩ := Spec.exists_of_key? h1.1
      obtain ⟨j, hj, hjk⟩ := Spec.exists_of_key? h1.2
      have hne : k.k1 ≠ k.k2 := (hw.hasEdge_nodes hf).1
      obtain ⟨b', e, hf', -⟩ := h.layer_remove hi hj (hik.trans hjk.symm) hne hf (by rw [hik]; exact hb) .deleted
      have e2 := e
      simp only [BaseLayer.removeEdge] at e
      obtain ⟨r, hr, hr'⟩ := bind_eq_ok e
      simp only [Res.ok.injEq, Prod.mk.injEq] at hr'
      refine ⟨r.1, by rw [hr]; rfl, ?_⟩
      rw [hr'.1]
      refine .one h hw rfl (out := .bool true) (ans_ok ?_)
      have hv := hw.valid_key h1.1
      simp [Graph.removeEdge, h.hasEdgeKeys hw h1.1 h1.2, hf, hv, Graph.layerFromKey_eq hb, e2]
  · rw [if_neg h1]
    refine ⟨x, ?_, by rw [hself]; exact .nil h hw⟩
    rw [decide_eq_false (fun h => h1 ⟨h.1, h.2.1⟩)] at hh'
    simp [Layer.removeEdge, hh']

/-- A node of the other layer. -/
theorem R.mergeNode {l : LayerId} {st : Layer × OMap NodeId LayerKey} (h : R (g.withLayer l st) σ) (hw : SWF σ) (hl : l ≠ UNKNOWN_LAYER)
    {n : NodeId} {y : Node} {a : NodeAttrs} (hid : y.id = n) (ha : y.attrs = some a)
    (hkey : σ.key? n = none ∨ σ.key? n = some (.static l))
    (haway : (g.withLayer l st).isMerged (.static l) n ↔ P.away l n = true) :
    ∃ st', Layer.mergeNodeStep P.cfg st (n, y) = .ok st' ∧
      Does (g.withLayer l st) σ (plan P σ (.node l n a)) (g.withLayer l st') := by
  have hid' := h.withLayer_id
  have hfind := h.withLayer_node n
  have hst : st.1.status.find? n = some .merged ↔ P.away l n = true := by
    rw [← haway]
    simp [Graph.isMerged, Graph.view, Graph.withLayer_at, BaseLayer.nst]
  unfold Layer.mergeNodeStep
  rw [plan_node]
  simp only [hid']
  by_cases haw : P.away l n = true
  · rw [if_pos (hst.2 haw), if_pos haw]
    exact ⟨st, rfl, .nil h hw⟩
  · rw [if_neg (fun hh => haw (hst.1 hh)), if_neg haw]
    cases hn : σ.nodes.find? n with
    | some i =>
      have hk := Spec.key?_eq hn
      have hki : i.key = .static l := by rw [hk] at hkey; simpa using hkey
      rw [Spec.nodeRec_key hn hki] at hfind
      obtain ⟨g', e, -⟩ := h.setNodeAttributes hw n a .deleted
      simp only [hfind]
      have hset : Does (g.withLayer l st) σ [.setNodeAttrs n a]
          (g.withLayer l ({ st.1 with nodes := st.1.nodes.insert n { σ.mkNode n i with attrs := some a } }, st.2)) := by
        refine .one h hw rfl (out := .bool true) (ans_ok ?_)
        simp only [Graph.setNodeAttributes, h.lookup', hk, hki, Graph.modNode, Graph.getNodePtr, Graph.withLayer_find, Res.at?_some,
          Res.bind_ok, hfind, Res.deref_some, Res.pure_eq, Res.ok.injEq, Prod.mk.injEq, and_true]
        simp [Graph.withLayer, OMap.insert_insert]
      have hattrs : (σ.mkNode n i).attrs = some i.attrs := rfl
      cases hu : P.cfg.updates l with
      | false => exact ⟨st, by simp, .nil h hw⟩
      | true =>
        cases harch : P.cfg.updateArchived with
        | true =>
          refine ⟨_, ?_, hset⟩
          simp [ha, hid']
        | false =>
          cases hact : i.attrs.isActive with
          | true =>
            refine ⟨_, ?_, hset⟩
            simp [ha, hattrs, hact, hid']
          | false =>
            refine ⟨st, ?_, .nil h hw⟩
            simp [hattrs, hact]
    | none =>
      have hk : σ.key? n = none := by simp [Spec.key?, hn]
      have hfind' : st.1.nodes.find? n = none := by rw [hfind]; simp [Spec.nodeRec, hn]
      have hlk : (g.withLayer l st).lookup.find? n = none := by rw [h.lookup', hk]
      have hlk' : st.2.find? n = none := hlk
      simp only [hfind']
      refine ⟨_, by rw [ha]; rfl, ?_⟩
      refine .one h hw (by simp [Op.ok, hl]) (out := .bool true) (ans_ok ?_)
      have hlc : (g.withLayer l st).lookup.contains n = false := OMap.contains_eq_false.2 hlk
      have hnc : st.1.nodes.contains n = false := OMap.contains_eq_false.2 hfind'
      simp only [Graph.emplaceNode, hlc, Graph.withLayer_find, Bool.false_eq_true, if_false, Layer.emplaceNode, hnc, Bool.not_false, if_true,
        Res.ok.injEq, Prod.mk.injEq, and_true]
      simp [Graph.withLayer, OMap.insert_insert, OMap.emplace, hnc, show st.2.contains n = false from hlc, hid, hid']

end
end Verif
