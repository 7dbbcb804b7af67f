import Verif.Lemmas.Merge16
/-! # Merging the same graph again -/

namespace Verif

section
variable {F : FloatOps} {cfg : MergeConfig} {g o g' : Graph} {σ σ0 τ : Spec} {P : MergePar}

/-- Every slot of the trajectory holds a node, and the next id is the number of slots. -/
structure DenseAt (σ : Spec) (l : LayerId) (p : Prefix) : Prop where
  next : (σ.dynInfo l p).next = (σ.dynInfo l p).top
  all : ∀ i, i < (σ.dynInfo l p).top → σ.key? (p.makeId i) = some (.dyn l p)

theorem Traj.dense {l : LayerId} {p : Prefix} (h : Traj σ0 τ l p) : DenseAt σ0 l p := ⟨h.next, h.mine⟩

/-- a node of a trajectory stays where it is -/
theorem plan_key_dyn (ev : MergeEv) (hf : ev.Fits σ) {n : NodeId} {l : LayerId} {p : Prefix} (h : σ.key? n = some (.dyn l p)) :
    (σ.after (plan P σ ev)).key? n = some (.dyn l p) := by
  obtain ⟨i, hi, hk⟩ := Spec.exists_of_key? h
  rw [Spec.key?, plan_nodes ev hf, hi]
  cases ev <;> unfold ptFx <;> dsimp only
  case rmNode l' n' =>
    split
    · rename_i e
      subst e
      rcases hf with h1 | h1 <;> · rw [h] at h1; cases h1
    · simp [hk]
  all_goals (repeat' split) <;> simp [hk]

theorem DenseAt.step {ev : MergeEv} (hf : ev.Fits σ) {l : LayerId} {p : Prefix} (h : DenseAt σ l p) : DenseAt (σ.after (plan P σ ev)) l p := by
  have hsame : (σ.after (plan P σ ev)).dynInfo l p = σ.dynInfo l p → DenseAt (σ.after (plan P σ ev)) l p := by
    intro e
    refine ⟨by rw [e]; exact h.next, ?_⟩
    intro i hi
    rw [e] at hi
    exact plan_key_dyn ev hf (h.all i hi)
  have hd := plan_dyn (P := P) ev hf
  cases ev with
  | create l' p' =>
    refine hsame ?_
    dsimp only at hd
    split at hd
    · unfold Spec.dynInfo; rw [hd]
    · rename_i hc
      unfold Spec.dynInfo
      rw [hd, OMap.find?_insert]
      split
      · rename_i e
        cases e
        rw [OMap.contains_eq_false.1 (by simpa using hc)]
        rfl
      · rfl
  | dynNode l' p' n t a =>
    dsimp only at hd
    split at hd
    · rename_i hn
      by_cases e : (l, p) = (l', p')
      · cases e
        obtain ⟨rfl, -⟩ := hf hn
        have hi : (σ.after (plan P σ (.dynNode l p (p.makeId (σ.dynInfo l p).next) t a))).dynInfo l p =
            ⟨(σ.dynInfo l p).next + 1, (σ.dynInfo l p).top + 1⟩ := by
          rw [Spec.dynInfo, hd, OMap.find?_insert]; simp
        refine ⟨by rw [hi]; simp [h.next], ?_⟩
        intro i hlt
        rw [hi] at hlt
        dsimp only at hlt
        by_cases hlt' : i < (σ.dynInfo l p).top
        · exact plan_key_dyn _ hf (h.all i hlt')
        · have : i = (σ.dynInfo l p).next := by rw [h.next]; omega
          subst this
          rw [Spec.key?, plan_nodes _ hf, hn]
          simp [ptFx]
      · refine hsame ?_
        unfold Spec.dynInfo
        rw [hd, OMap.find?_insert, if_neg (fun x => e x.symm)]
    · refine hsame ?_
      unfold Spec.dynInfo; rw [hd]
  | _ => exact hsame (by unfold Spec.dynInfo; rw [hd])

theorem Merging.dense (h : Merging F cfg g o σ0 τ g') {l : LayerId} {p : Prefix} (hl : o.hasDynLayer l p = true) :
    DenseAt (σ0.merged (mergePar F cfg g σ0 τ) (mergeEvs σ0 cfg o)) l p :=
  h.did.induct (fun _ σ => DenseAt σ l p) (h.m.traj h.r0 h.w0 h.t0 h.ro h.to hl).dense (fun _ _ _ _ _ hq _ hf => hq.step hf)

/-- the slot of a node of a trajectory -/
theorem R.slot_of_key (hr : R g σ) {l : LayerId} {p : Prefix} {d : DynLayer} (hd : g.dynLayer? l p = some d) {i : Nat}
    (hi : i < 2 ^ 32) (hk : σ.key? (p.makeId i) = some (.dyn l p)) : ∃ x, d.nodes[i]? = some (some x) := by
  have hb : g.layerAt? (.dyn l p) = some (.dyn d) := by simp [Graph.layerAt?, hd]
  obtain ⟨x, hx, hxk⟩ := Spec.exists_of_key? hk
  have hrec := RV.node hr (.dyn l p) (p.makeId i)
  rw [Graph.view_node_of_layerAt? hb, Spec.nodeRec_key hx hxk] at hrec
  obtain ⟨-, hslot⟩ := BaseLayer.nd_dyn_lt hrec
  rw [Prefix.index_makeId _ _ hi] at hslot
  exact ⟨_, hslot⟩

theorem R.key_of_slot (hr : R g σ) (ht : σ.Tops) {l : LayerId} {p : Prefix} {d : DynLayer} (hd : g.dynLayer? l p = some d) {i : Nat} {x : Node}
    (hx : d.nodes[i]? = some (some x)) : i < 2 ^ 32 ∧ σ.key? (p.makeId i) = some (.dyn l p) := by
  have hb : g.layerAt? (.dyn l p) = some (.dyn d) := by simp [Graph.layerAt?, hd]
  obtain ⟨i1, i2, i3, i4, i6, i5⟩ := RV.info hr (.dyn l p) (BaseLayer.info (.dyn d)) (by simp [Graph.view, hb])
  simp only [BaseLayer.info] at i1 i2 i3 i4 i5 i6
  have hlt : i < d.nodes.length := (List.getElem?_eq_some_iff.1 hx).1
  have hsm := ht l p
  have h1 : g.view.node (.dyn l p) (p.makeId i) = some x := by
    rw [Graph.view_node_of_layerAt? hb]
    simp [BaseLayer.nd, i2, Prefix.isMatch_makeId p (show i < 2 ^ 32 by omega), Prefix.index_makeId p p (show i < 2 ^ 32 by omega), hx]
  refine ⟨by omega, ?_⟩
  rw [RV.node hr] at h1
  unfold Spec.nodeRec at h1
  obtain ⟨j, hj, h2⟩ := Option.bind_eq_some_iff.1 h1
  split at h2
  · rename_i hk
    rw [Spec.key?_eq hj, hk]
  · cases h2

/-- every node of a trajectory of the other graph is in the same trajectory of the result -/
theorem Merging.dyn_there (h : Merging F cfg g o σ0 τ g') {n : NodeId} {l : LayerId} {p : Prefix} (hn : τ.key? n = some (.dyn l p)) :
    (σ0.merged (mergePar F cfg g σ0 τ) (mergeEvs σ0 cfg o)).key? n = some (.dyn l p) := by
  obtain ⟨x, hx, hk⟩ := Spec.exists_of_key? hn
  obtain ⟨ts, hst⟩ := Option.isSome_iff_exists.1 (h.wo.dyn n x l p hx hk).2.2
  have h1 := merged_dynNode h.did.fits h.from_ hx hk hst (mergeEvs_dynNode h.ro h.wo hx hk hst)
  cases h2 : (σ0.merged (mergePar F cfg g σ0 τ) (mergeEvs σ0 cfg o)).key? n with
  | some k' => rw [h.inv.home h.home h2 hn]
  | none =>
    exfalso
    have h3 : (σ0.merged (mergePar F cfg g σ0 τ) (mergeEvs σ0 cfg o)).nodes.find? n = none := by simpa [Spec.key?] using h2
    rw [h3] at h1
    unfold ptFx at h1
    simp only [if_true] at h1
    split at h1
    · split at h1 <;> cases h1
    · cases h1

/-- **The result of a merge can be merged with the same graph again.** -/
theorem Merging.again (h : Merging F cfg g o σ0 τ g') (t' : (σ0.merged (mergePar F cfg g σ0 τ) (mergeEvs σ0 cfg o)).Tops) : g'.Mergeable o cfg := by
  have hr' := h.inv.r
  have hl : ∀ l, g'.hasLayer l = g.hasLayer l := h.nodes.layers
  have hlow : ∀ l p d, o.hasDynLayer l p = true → g'.dynLayer? l p = some d → none ∉ d.nodes ∧ d.next = d.nodes.length := by
    intro l p d ho hd
    have hdn := h.dense ho
    have hb : g'.layerAt? (.dyn l p) = some (.dyn d) := by simp [Graph.layerAt?, hd]
    obtain ⟨i1, i2, i3, i4, i6, i5⟩ := RV.info hr' (.dyn l p) (BaseLayer.info (.dyn d)) (by simp [Graph.view, hb])
    simp only [BaseLayer.info] at i3 i4
    refine ⟨?_, by rw [i3, i4, hdn.next]⟩
    intro hmem
    obtain ⟨i, hi⟩ := List.mem_iff_getElem?.1 hmem
    have hlt : i < d.nodes.length := (List.getElem?_eq_some_iff.1 hi).1
    have hsm := t' l p
    obtain ⟨x, hx⟩ := R.slot_of_key hr' hd (by omega) (hdn.all i (by omega))
    rw [hi] at hx
    cases hx
  refine ⟨?_, ?_, h.m.other, hlow, ?_, ?_⟩
  · intro n k k' h1 h2
    rw [hr'.getLayerForNode] at h1
    rw [h.ro.getLayerForNode] at h2
    exact h.inv.home h.home h1 h2
  · intro l n hg hn
    rw [hl] at hg
    have hnone : g'.getLayerForNode n = none := by
      have := h.nodes.removed l n hg hn
      rw [hr'.nodeObs h.inv.w] at this
      rw [hr'.getLayerForNode, Spec.key?, this]; rfl
    exact ⟨(h.m.removed l n hg hn).1, .inl hnone, fun m kn km _ e => by rw [hnone] at e; cases e⟩
  · intro l p d e i x t hd he hi hx _
    exfalso
    obtain ⟨hsm, hk⟩ := R.key_of_slot h.ro h.to he hx
    obtain ⟨y, hy⟩ := R.slot_of_key hr' hd hsm (h.dyn_there hk)
    have := (List.getElem?_eq_some_iff.1 hy).1
    omega
  · intro hp n k k' h1 h2
    refine h.m.map hp n k k' h1 ?_
    rcases h2 with h2 | h2
    · rw [hr'.getLayerForNode] at h2
      rcases h.inv.keys _ _ h2 with h3 | ⟨-, h3⟩
      · exact .inl (by rw [h.r0.getLayerForNode, h3])
      · exact .inr (by rw [h.ro.getLayerForNode, h3])
    · exact .inr h2

theorem Merging.away_again (h : Merging F cfg g o σ0 τ g') (l : LayerId) (n : NodeId) : g'.mergedAway l n ↔ g.mergedAway l n := by
  rw [mergedAway_iff, h.inv.merged, h.away_iff]

/-- **Merging the same graph again changes no node.** -/
theorem Merging.nodes_again (h : Merging F cfg g o σ0 τ g') {g'' : Graph} (h2 : g''.NodesMerged g' o F cfg) (n : NodeId) :
    g''.nodeObs n = g'.nodeObs n := by
  have h1 := h.nodes
  cases ho : o.nodeObs n with
  | none =>
    have hno : o.hasNode n = false := by
      rw [h.ro.nodeObs h.wo] at ho
      rw [h.ro.hasNode]; exact OMap.contains_eq_false.2 ho
    by_cases hrep : ∃ l, g.hasLayer l = true ∧ o.reportsNode l n
    · obtain ⟨l, hl, hr⟩ := hrep
      rw [h1.removed l n hl hr, h2.removed l n (by rw [h1.layers, hl]) hr]
    · exact h2.kept n hno (fun l hl hr => hrep ⟨l, by rw [← h1.layers, hl], hr⟩)
  | some x =>
    obtain ⟨k, ts, a⟩ := x
    have hkey : o.getLayerForNode n = some k := by
      rw [h.ro.nodeObs h.wo] at ho
      rw [h.ro.getLayerForNode, Spec.key?_eq ho]
    cases k with
    | static l =>
      cases hl : g.hasLayer l with
      | false => rw [h1.foreign n l hkey hl, h2.foreign n l hkey (by rw [h1.layers, hl])]
      | true =>
        by_cases ha : g.mergedAway l n
        · rw [h1.away n l hkey ha, h2.away n l hkey ((h.away_again l n).2 ha)]
        · cases hg : g.nodeObs n with
          | none =>
            have e := h1.newStatic n l ts a ho hl ha hg
            rw [h2.sharedStatic n l ts a _ ho e, e]
            simp
          | some i =>
            have e := h1.sharedStatic n l ts a i ho hg
            rw [h2.sharedStatic n l ts a _ ho e, e]
            by_cases hc : (cfg.updates l && (cfg.updateArchived || i.attrs.isActive)) = true
            · simp [hc]
            · simp [hc]
    | dyn l p =>
      have hex : ∃ i, g'.nodeObs n = some i ∧ (cfg.updateDynamic = true → ∃ q, i.attrs = a.setPosition q) := by
        cases hg : g.nodeObs n with
        | some i =>
          refine ⟨_, h1.sharedDyn n l p ts a i ho hg, ?_⟩
          intro hu
          exact ⟨i.attrs.position, by simp [hu]⟩
        | none =>
          have ho' := ho
          rw [h.ro.nodeObs h.wo] at ho'
          obtain ⟨t, hst⟩ := Option.isSome_iff_exists.1 (h.wo.dyn n _ l p ho' rfl).2.2
          have := merged_dynNode h.did.fits h.from_ ho' rfl hst (mergeEvs_dynNode h.ro h.wo ho' rfl hst)
          have hg' := hg
          rw [h.r0.nodeObs h.w0] at hg'
          rw [hg'] at this
          refine ⟨_, by rw [h.inv.r.nodeObs h.inv.w, this]; simp only [ptFx, if_true]; rfl, fun _ => ⟨_, rfl⟩⟩
      obtain ⟨i, e, hq⟩ := hex
      rw [h2.sharedDyn n l p ts a i ho e, e]
      by_cases hu : cfg.updateDynamic = true
      · obtain ⟨q, hq⟩ := hq hu
        obtain ⟨ik, is, ia⟩ := i
        simp only at hq
        subst hq
        simp [hu, NodeAttrs.position_setPosition]
      · simp [hu]

theorem Merging.tops (h : Merging F cfg g o σ0 τ g') : (σ0.merged (mergePar F cfg g σ0 τ) (mergeEvs σ0 cfg o)).Tops :=
  Spec.tops_after h.t0 h.did.does.ok

/-! ## Edges, without an id map and without the parent rule -/

/-- Every edge of the other graph whose ends are in the result is in the result. -/
theorem Merging.edge_there (h : Merging F cfg g o σ0 τ g') (hid : ∀ n, cfg.getMergedId n = n) (hp : cfg.enforceParent = false) {s t : NodeId}
    (hE : o.hasEdge s t = .ok true) (hs : g'.hasNode s = true) (ht : g'.hasNode t = true) : g'.hasEdge s t = .ok true := by
  have h1 := h.edges
  have hE' : τ.hasEdge s t = true := by rw [h.ro.hasEdge h.wo] at hE; injection hE
  obtain ⟨hne, hsn, htn⟩ := h.wo.hasEdge_nodes hE'
  obtain ⟨ks, hks⟩ := Spec.key_of_contains hsn
  obtain ⟨kt, hkt⟩ := Spec.key_of_contains htn
  have os : o.getLayerForNode s = some ks := by rw [h.ro.getLayerForNode, hks]
  have ot : o.getLayerForNode t = some kt := by rw [h.ro.getLayerForNode, hkt]
  rw [h.inv.r.hasNode] at hs ht
  obtain ⟨as, has⟩ := Spec.key_of_contains hs
  obtain ⟨at', hat⟩ := Spec.key_of_contains ht
  have e1 := h.inv.home h.home has hks
  have e2 := h.inv.home h.home hat hkt
  subst e1; subst e2
  by_cases hk : as = at'
  · subst hk
    cases as with
    | dyn l p => exact h1.traj s t hE ⟨l, p, os, ot⟩
    | static l =>
      have hl : g.hasLayer l = true := by
        obtain ⟨i, hi, hik⟩ := Spec.exists_of_key? has
        have := (h.inv.w.node s i hi).1
        rw [hik] at this
        rw [← h.nodes.layers]
        exact (h.inv.r.static_layer l).trans this
      have := h1.static s t l hE ⟨os, ot⟩ hl (by rw [hid, hid]; exact hne)
        (by rw [hid, hid]; exact ⟨by rw [h.inv.r.getLayerForNode, has], by rw [h.inv.r.getLayerForNode, hat]⟩)
      rw [hid, hid] at this
      exact this.elim id id
  · have := h1.inter hp s t hE (by rw [os, ot]; intro x; exact hk (Option.some.inj x)) (by rw [hid, hid]; exact hne)
      (by rw [hid, h.inv.r.hasNode]; exact hs) (by rw [hid, h.inv.r.hasNode]; exact ht)
    rw [hid, hid] at this
    exact this

theorem R.hasEdge_iff (hr : R g σ) (hw : SWF σ) (a b : NodeId) : g.hasEdge a b = .ok true ↔ ∃ e, g.edgeObs a b = some e := by
  rw [hr.hasEdge hw, hr.edgeObs hw]
  simp only [Res.ok.injEq]
  unfold Spec.hasEdge Spec.edge?
  exact OMap.contains_eq_true

theorem R.hasEdge_key (hr : R g σ) (hw : SWF σ) {a b s t : NodeId} (h : EdgeKey.of a b = EdgeKey.of s t) : g.hasEdge a b = g.hasEdge s t := by
  rw [hr.hasEdge hw, hr.hasEdge hw]
  unfold Spec.hasEdge
  rw [h]

/-- **Merging the same graph again neither adds nor removes an edge.** -/
theorem Merging.edges_again (h : Merging F cfg g o σ0 τ g') {g'' : Graph} {σ1 : Spec} (h2 : Merging F cfg g' o σ1 τ g'')
    (hid : ∀ n, cfg.getMergedId n = n) (hp : cfg.enforceParent = false) (a b : NodeId) :
    g''.hasEdge a b = .ok true ↔ g'.hasEdge a b = .ok true := by
  have hsame : ∀ n, g''.hasNode n = g'.hasNode n := by
    intro n
    have := h.nodes_again h2.nodes n
    rw [h2.inv.r.nodeObs h2.inv.w, h.inv.r.nodeObs h.inv.w] at this
    rw [h2.inv.r.hasNode, h.inv.r.hasNode]
    unfold OMap.contains
    rw [this]
  have ends : ∀ {x : Graph} {σ : Spec}, R x σ → SWF σ → ∀ {s t : NodeId}, x.hasEdge s t = .ok true → x.hasNode s = true ∧ x.hasNode t = true := by
    intro x σ hr hw s t he
    rw [hr.hasEdge hw] at he
    obtain ⟨-, h3, h4⟩ := hw.hasEdge_nodes (Res.ok.inj he)
    exact ⟨by rw [hr.hasNode, h3], by rw [hr.hasNode, h4]⟩
  constructor
  · intro he
    obtain ⟨e, hoe⟩ := (h2.inv.r.hasEdge_iff h2.inv.w a b).1 he
    rcases h2.edges.origin a b e hoe with ⟨h3, -⟩ | ⟨s, t, w, s', t', h3, -, h5, h6⟩
    · exact (h.inv.r.hasEdge_iff h.inv.w a b).2 ⟨e, h3⟩
    · have hst : s' = s ∧ t' = t := by
        rcases h6 with ⟨-, h7, h8⟩ | ⟨-, h7, h8⟩
        · exact ⟨h7, h8⟩
        · rw [hid] at h7 h8; exact ⟨h7, h8⟩
      obtain ⟨rfl, rfl⟩ := hst
      rw [h2.inv.r.hasEdge_key h2.inv.w h5] at he
      rw [h.inv.r.hasEdge_key h.inv.w h5]
      obtain ⟨n1, n2⟩ := ends h2.inv.r h2.inv.w he
      rw [hsame] at n1 n2
      exact h.edge_there hid hp ((h.ro.hasEdge_iff h.wo _ _).2 ⟨_, h3⟩) n1 n2
  · intro he
    obtain ⟨n1, n2⟩ := ends h.inv.r h.inv.w he
    by_cases hoE : o.hasEdge a b = .ok true
    · exact h2.edge_there hid hp hoE (by rw [hsame]; exact n1) (by rw [hsame]; exact n2)
    · obtain ⟨e, hoe⟩ := (h.inv.r.hasEdge_iff h.inv.w a b).1 he
      refine (h2.inv.r.hasEdge_iff h2.inv.w a b).2 ⟨e, h2.edges.kept a b e hoe ?_ ?_ ?_⟩
      · intro l n hl hn
        rw [h.nodes.layers] at hl
        have hgone := h.nodes.removed l n hl hn
        rw [h.inv.r.nodeObs h.inv.w] at hgone
        have hno : g'.hasNode n = false := by rw [h.inv.r.hasNode]; exact OMap.contains_eq_false.2 hgone
        constructor
        · rintro rfl; rw [hno] at n1; cases n1
        · rintro rfl; rw [hno] at n2; cases n2
      · intro l hl hre ⟨la, lb⟩
        rw [h.nodes.layers] at hl
        rcases h.edges.origin a b e hoe with ⟨h3, h4⟩ | ⟨s, t, w, s', t', h3, -, h5, h6⟩
        · refine h4 l hl hre ?_
          have hE0 : σ0.hasEdge a b = true := by
            have := (h.r0.hasEdge_iff h.w0 a b).2 ⟨e, h3⟩
            rw [h.r0.hasEdge h.w0] at this
            exact Res.ok.inj this
          obtain ⟨-, m1, m2⟩ := h.w0.hasEdge_nodes hE0
          obtain ⟨ka, hka⟩ := Spec.key_of_contains m1
          obtain ⟨kb, hkb⟩ := Spec.key_of_contains m2
          rw [h.inv.r.getLayerForNode] at la lb
          have x1 := h.inv0.key_same h.inv hka la
          have x2 := h.inv0.key_same h.inv hkb lb
          subst x1; subst x2
          exact ⟨by rw [h.r0.getLayerForNode, hka], by rw [h.r0.getLayerForNode, hkb]⟩
        · have hst : s' = s ∧ t' = t := by
            rcases h6 with ⟨-, h7, h8⟩ | ⟨-, h7, h8⟩
            · exact ⟨h7, h8⟩
            · rw [hid] at h7 h8; exact ⟨h7, h8⟩
          obtain ⟨rfl, rfl⟩ := hst
          refine hoE ?_
          rw [h.ro.hasEdge_key h.wo h5]
          exact (h.ro.hasEdge_iff h.wo _ _).2 ⟨_, h3⟩
      · intro x; rw [hp] at x; cases x

end
end Verif
