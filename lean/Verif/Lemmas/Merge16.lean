import Verif.Lemmas.Merge15
/-! # `mergeGraph` in terms of observations: nodes and edges -/

namespace Verif

section
variable {F : FloatOps} {cfg : MergeConfig} {g o g' : Graph} {σ σ0 τ : Spec} {P : MergePar}

theorem Spec.merged_frame {evs : List MergeEv} (hf : FitsAll P σ evs) : (σ.merged P evs).layerIds = σ.layerIds ∧ (σ.merged P evs).mesh = σ.mesh := by
  induction evs generalizing σ with
  | nil => exact ⟨rfl, rfl⟩
  | cons ev evs ih =>
    rw [Spec.merged_cons]
    obtain ⟨h1, h2, -⟩ := plan_frame (P := P) ev hf.1
    obtain ⟨h3, h4⟩ := ih hf.2
    exact ⟨h3.trans h1, h4.trans h2⟩

/-- the dynamic layers after a run -/
theorem Spec.merged_dyn {evs : List MergeEv} (hf : FitsAll P σ evs) (l : LayerId) (p : Prefix)
    (hall : ∀ n t a, MergeEv.dynNode l p n t a ∈ evs → MergeEv.create l p ∈ evs ∨ σ.dyn.contains (l, p) = true) :
    (σ.merged P evs).dyn.contains (l, p) = true ↔ σ.dyn.contains (l, p) = true ∨ MergeEv.create l p ∈ evs := by
  have mono : ∀ {evs : List MergeEv} {σ : Spec}, FitsAll P σ evs → σ.dyn.contains (l, p) = true → (σ.merged P evs).dyn.contains (l, p) = true := by
    intro evs
    induction evs with
    | nil => exact fun _ h => h
    | cons ev evs ih =>
      intro σ hf h
      rw [Spec.merged_cons]
      refine ih hf.2 ?_
      rw [plan_dyn ev hf.1]
      cases ev <;> dsimp only <;> (try split) <;> first | exact h | (rw [OMap.contains_insert]; simp [h])
  constructor
  · intro h
    by_cases hcc : σ.dyn.contains (l, p) = true ∨ MergeEv.create l p ∈ evs
    · exact hcc
    · exfalso
      obtain ⟨hn, hc⟩ := not_or.1 hcc
      clear hcc
      have hno : ∀ n t a, MergeEv.dynNode l p n t a ∉ evs := fun n t a hm => (hall n t a hm).elim hc hn
      clear hall
      induction evs generalizing σ with
      | nil => exact hn h
      | cons ev evs ih =>
        rw [Spec.merged_cons] at h
        refine ih hf.2 h ?_ (fun hh => hc (List.mem_cons_of_mem _ hh)) (fun n t a hh => hno n t a (List.mem_cons_of_mem _ hh))
        rw [plan_dyn ev hf.1]
        cases ev with
        | create l' p' =>
          dsimp only
          split
          · exact hn
          · rw [OMap.contains_insert]
            intro hh
            rcases Bool.or_eq_true _ _ |>.mp hh with h1 | h1
            · simp at h1
              obtain ⟨rfl, rfl⟩ := h1
              exact hc (List.mem_cons_self ..)
            · exact hn h1
        | dynNode l' p' n t a =>
          dsimp only
          split
          · rw [OMap.contains_insert]
            intro hh
            rcases Bool.or_eq_true _ _ |>.mp hh with h1 | h1
            · simp at h1
              obtain ⟨rfl, rfl⟩ := h1
              exact hno n t a (List.mem_cons_self ..)
            · exact hn h1
          · exact hn
        | _ => exact hn
  · rintro (h | h)
    · exact mono hf h
    · obtain ⟨A, B, rfl⟩ := List.append_of_mem h
      rw [Spec.merged_append, Spec.merged_cons]
      obtain ⟨h1, h2⟩ := (FitsAll_append A _).1 hf
      refine mono h2.2 ?_
      rw [plan_dyn _ h2.1]
      dsimp only
      split
      · assumption
      · rw [OMap.contains_insert]; simp

theorem mergedAway_iff {l : LayerId} {n : NodeId} : g.mergedAway l n ↔ g.isMerged (.static l) n := by
  unfold Graph.mergedAway Graph.isMerged
  simp only [Graph.view, Graph.layerAt?]
  cases h : g.layers.find? l with
  | none => simp
  | some x =>
    simp only [Option.some.injEq, exists_eq_left', Layer.checkNode, Option.map_some, Option.bind_some, BaseLayer.nst]
    cases hx : x.status.find? n with
    | none => simp
    | some s => simp

/-- Everything a merge is about. -/
structure Merging (F : FloatOps) (cfg : MergeConfig) (g o : Graph) (σ0 τ : Spec) (g' : Graph) : Prop where
  r0 : R g σ0
  w0 : SWF σ0
  t0 : σ0.Tops
  ro : R o τ
  wo : SWF τ
  to : τ.Tops
  m : g.Mergeable o cfg
  did : Did (mergePar F cfg g σ0 τ) g σ0 (mergeEvs σ0 cfg o) g'
  inv0 : MInv (mergePar F cfg g σ0 τ) σ0 τ g σ0
  inv : MInv (mergePar F cfg g σ0 τ) σ0 τ g' (σ0.merged (mergePar F cfg g σ0 τ) (mergeEvs σ0 cfg o))

theorem Merging.home (h : Merging F cfg g o σ0 τ g') (n : NodeId) (k k' : LayerKey) (h1 : σ0.key? n = some k) (h2 : τ.key? n = some k') : k = k' :=
  h.m.home n k k' (by rw [h.r0.getLayerForNode, h1]) (by rw [h.ro.getLayerForNode, h2])

theorem Merging.from_ (h : Merging F cfg g o σ0 τ g') : ∀ ev ∈ mergeEvs σ0 cfg o, ev.From τ :=
  fun _ hev => mergeEvs_from h.ro h.to (fun _ _ hl => h.m.traj h.r0 h.w0 h.t0 h.ro h.to hl) (h.m.removable h.r0 h.w0 h.ro) hev

theorem Merging.reports (h : Merging F cfg g o σ0 τ g') {l : LayerId} {n : NodeId} :
    MergeEv.rmNode l n ∈ mergeEvs σ0 cfg o ↔ g.hasLayer l = true ∧ o.reportsNode l n := by
  rw [mergeEvs_rmNode, (h.r0.shows h.w0).layers]
  constructor
  · rintro ⟨x, h1, h2, h3⟩; exact ⟨h2, x, h1, h3⟩
  · rintro ⟨h2, x, h1, h3⟩; exact ⟨x, h1, h2, h3⟩

theorem Merging.rmOk (h : Merging F cfg g o σ0 τ g') : RmOk σ0 τ (mergeEvs σ0 cfg o) := by
  intro l n hm
  obtain ⟨x, h1, h2, h3⟩ := mergeEvs_rmNode.1 hm
  obtain ⟨h4, h5, -⟩ := h.m.removable h.r0 h.w0 h.ro l x n h2 h1 h3
  exact ⟨h4, h5⟩

theorem Merging.away_iff (_h : Merging F cfg g o σ0 τ g') {l : LayerId} {n : NodeId} : (mergePar F cfg g σ0 τ).away l n = true ↔ g.mergedAway l n := by
  rw [mergedAway_iff]; simp [mergePar]

/-- the nodes -/
theorem Merging.nodes (h : Merging F cfg g o σ0 τ g') : g'.NodesMerged g o F cfg := by
  have hf := h.did.fits
  have hfrom := h.from_
  have hr' := h.inv.r
  have hw' := h.inv.w
  obtain ⟨fr1, fr2⟩ := Spec.merged_frame hf
  have hlay := (h.r0.shows h.w0).layers
  have htop0 : ∀ l p d, g.dynLayer? l p = some d → d.nodes.length = (σ0.dynInfo l p).top := by
    intro l p d hd
    have hb : g.layerAt? (.dyn l p) = some (.dyn d) := by simp [Graph.layerAt?, hd]
    obtain ⟨-, -, -, i4, -⟩ := RV.info h.r0 (.dyn l p) (BaseLayer.info (.dyn d)) (by simp [Graph.view, hb])
    exact i4
  have hdynNode : ∀ n l p ts a, o.nodeObs n = some ⟨.dyn l p, ts, a⟩ → ∃ t, ts = some t ∧
      g'.nodeObs n = ptFx (mergePar F cfg g σ0 τ) (.dynNode l p n t a) n (g.nodeObs n) := by
    intro n l p ts a hn
    rw [h.ro.nodeObs h.wo] at hn
    obtain ⟨t, ht⟩ := Option.isSome_iff_exists.1 (h.wo.dyn n _ l p hn rfl).2.2
    cases (show ts = some t from ht)
    refine ⟨t, rfl, ?_⟩
    rw [hr'.nodeObs hw', h.r0.nodeObs h.w0]
    exact merged_dynNode hf hfrom hn rfl rfl (mergeEvs_dynNode h.ro h.wo hn rfl rfl)
  have hstat : ∀ n l ts a, o.nodeObs n = some ⟨.static l, ts, a⟩ → g.hasLayer l = true →
      g'.nodeObs n = ptFx (mergePar F cfg g σ0 τ) (.node l n a) n (g.nodeObs n) := by
    intro n l ts a hn hl
    rw [h.ro.nodeObs h.wo] at hn
    rw [hr'.nodeObs hw', h.r0.nodeObs h.w0]
    rw [hlay] at hl
    exact merged_static hf hfrom hn rfl (mergeEvs_node h.ro hn rfl h.wo hl)
  -- a node of both is in the same layer
  have hboth : ∀ n k ts a i, o.nodeObs n = some ⟨k, ts, a⟩ → g.nodeObs n = some i → i.key = k := by
    intro n k ts a i h1 h2
    rw [h.ro.nodeObs h.wo] at h1
    rw [h.r0.nodeObs h.w0] at h2
    exact h.home n _ _ (Spec.key?_eq h2) (Spec.key?_eq h1)
  have hobsk : ∀ n k, o.getLayerForNode n = some k → ∃ i, o.nodeObs n = some i ∧ i.key = k := by
    intro n k hk
    rw [h.ro.getLayerForNode] at hk
    obtain ⟨i, h1, h2⟩ := Spec.exists_of_key? hk
    exact ⟨i, by rw [h.ro.nodeObs h.wo, h1], h2⟩
  refine ⟨?_, ?_, ?_, ?_, ?_, ?_, ?_, ?_, ?_, ?_, ?_, ?_, ?_⟩
  · rw [show g'.layerIds = _ from RV.layerIds hr', fr1]; exact (show g.layerIds = _ from RV.layerIds h.r0).symm
  · rw [show g'.mesh = _ from RV.mesh hr', fr2]; exact (show g.mesh = _ from RV.mesh h.r0).symm
  · intro l; rw [(hr'.shows hw').layers, fr1, hlay]
  · intro l p
    have hcr : ∀ n t a, MergeEv.dynNode l p n t a ∈ mergeEvs σ0 cfg o → o.hasDynLayer l p = true := by
      intro n t a hm
      obtain ⟨x, h1, h2, -⟩ := hfrom _ hm
      have := (h.wo.node n x h1).1
      rw [h2] at this
      rw [h.ro.dyn_layer]; exact this
    have hcreate : MergeEv.create l p ∈ mergeEvs σ0 cfg o ↔ o.hasDynLayer l p = true := by
      rw [mem_mergeEvs]
      constructor
      · rintro (⟨l', p', d, h1, h2⟩ | ⟨l', x, h1, hl, h2⟩ | h1 | h1)
        · simp only [dynEvs, List.mem_cons, List.mem_append, MergeEv.create.injEq] at h2
          rcases h2 with ⟨rfl, rfl⟩ | h2 | h2
          · unfold Graph.hasDynLayer; rw [h1]; rfl
          · obtain ⟨_, _, _, _, _, _, _, h3⟩ := dynNodeEvs_node h2; cases h3
          · simp [edgeEvs, List.mem_filterMap] at h2
        · simp [staticEvs, edgeEvs, List.mem_filterMap] at h2
        all_goals
          obtain ⟨_, _, _, _, _, h3⟩ := interEvs_mem.1 h1
          cases h3
      · intro hl
        obtain ⟨d, hd⟩ := Option.isSome_iff_exists.1 hl
        exact .inl ⟨l, p, d, hd, List.mem_cons_self ..⟩
    rw [hr'.dyn_layer, h.r0.dyn_layer, Bool.eq_iff_iff,
      Spec.merged_dyn hf l p (fun n t a hm => .inl (hcreate.2 (hcr n t a hm))), hcreate, Bool.or_eq_true]
  · intro l n hl hn
    obtain ⟨h1, -, -⟩ := h.m.removed l n hl hn
    rw [h.ro.hasNode] at h1
    rw [hr'.nodeObs hw']
    exact merged_gone hf hfrom (OMap.contains_eq_false.1 h1) (h.reports.2 ⟨hl, hn⟩)
  · intro n hn hno
    rw [h.ro.hasNode] at hn
    rw [hr'.nodeObs hw', h.r0.nodeObs h.w0]
    refine merged_kept hf (fun ev hev he => ?_)
    obtain ⟨l, rfl⟩ := From_none (hfrom ev hev) he (OMap.contains_eq_false.1 hn)
    obtain ⟨h1, h2⟩ := h.reports.1 hev
    exact hno l h1 h2
  · intro n l hk hl
    have hg : g.nodeObs n = none := by
      cases hx : g.nodeObs n with
      | none => rfl
      | some i =>
        obtain ⟨j, h1, h2⟩ := hobsk n _ hk
        have := hboth n j.key j.stamp j.attrs i h1 hx
        rw [h.r0.nodeObs h.w0] at hx
        have h3 := (h.w0.node n i hx).1
        rw [this, h2] at h3
        rw [hlay] at hl
        rw [show σ0.layerIds.contains l = true from h3] at hl
        cases hl
    rw [← hg, hr'.nodeObs hw', h.r0.nodeObs h.w0]
    refine merged_kept hf (fun ev hev he => ?_)
    rw [h.ro.getLayerForNode] at hk
    obtain ⟨i, h1, h2⟩ := Spec.exists_of_key? hk
    have := From_static (hfrom ev hev) he h1 h2
    subst this
    rcases mem_mergeEvs.1 hev with ⟨l', p', d, h3, h4⟩ | ⟨l', x, h3, hl', h4⟩ | h3 | h3
    · simp only [dynEvs, List.mem_cons, List.mem_append, reduceCtorEq, false_or] at h4
      rcases h4 with h4 | h4
      · obtain ⟨_, _, _, _, _, _, _, h5⟩ := dynNodeEvs_node h4; cases h5
      · simp [edgeEvs, List.mem_filterMap] at h4
    · simp only [staticEvs, edgeEvs, List.mem_append, List.mem_map, List.mem_filterMap, Option.map_eq_some_iff, reduceCtorEq, and_false, exists_false,
        false_or, or_false, MergeEv.node.injEq] at h4
      obtain ⟨_, _, _, _, rfl, _⟩ := h4
      rw [hlay, hl'] at hl
      cases hl
    all_goals
      obtain ⟨_, _, _, _, _, h5⟩ := interEvs_mem.1 h3
      cases h5
  · intro n l hk hm
    have hl : g.hasLayer l = true := by
      obtain ⟨x, hx, -⟩ := hm
      exact OMap.contains_eq_true.2 ⟨x, hx⟩
    obtain ⟨⟨k, ts, a⟩, h1, h2⟩ := hobsk n _ hk
    cases h2
    rw [hstat n l ts a h1 hl]
    have ha := h.away_iff.2 hm
    simp only [ptFx, if_true, ha]
    cases hx : g.nodeObs n with
    | none => rfl
    | some i =>
      have := hboth n _ ts a i h1 hx
      rw [h.r0.nodeObs h.w0] at hx
      have h3 := h.inv0.away l n ha
      rw [Spec.key?_eq hx, this] at h3
      exact (h3 rfl).elim
  · intro n l ts a h1 hl hm hn
    rw [hstat n l ts a h1 hl, hn]
    have : (mergePar F cfg g σ0 τ).away l n = false := by
      rw [Bool.eq_false_iff]; exact fun hh => hm (h.away_iff.1 hh)
    simp [ptFx, this]
  · intro n l ts a i h1 h2
    have hk := hboth n _ ts a i h1 h2
    have h3 := h2
    rw [h.r0.nodeObs h.w0] at h3
    have hl := (h.w0.node n i h3).1
    rw [hk] at hl
    rw [hstat n l ts a h1 (by rw [hlay]; exact hl), h2]
    have : (mergePar F cfg g σ0 τ).away l n = false := by
      rw [Bool.eq_false_iff]
      intro hh
      have h4 := h.inv0.away l n hh
      rw [Spec.key?_eq h3, hk] at h4
      exact h4 rfl
    simp only [ptFx, if_true, this, Bool.false_eq_true, if_false]
    show (if (cfg.updates l && (cfg.updateArchived || i.attrs.isActive)) = true then _ else _) = _
    split <;> rfl
  · intro n l p ts a i h1 h2
    obtain ⟨t, rfl, h3⟩ := hdynNode n l p ts a h1
    rw [h3, h2]
    simp only [ptFx, if_true]
    show (if cfg.updateDynamic = true then _ else _) = _
    split <;> rfl
  · intro n l p ts a h1 h2 h3
    obtain ⟨t, rfl, h4⟩ := hdynNode n l p ts a h1
    rw [h4, h2]
    simp only [ptFx, if_true]
    have htop : (σ0.dynInfo l p).top = 0 := by
      cases hd : g.dynLayer? l p with
      | some d => rw [← htop0 l p d hd, h3 d hd]; rfl
      | none =>
        have := h.r0.dyn_layer l p
        rw [Graph.hasDynLayer, hd] at this
        unfold Spec.dynInfo
        rw [OMap.contains_eq_false.1 this.symm]
        rfl
    simp only [mergePar, deltaAt, htop, if_true]
  · intro n l p ts a d m i j h1 h2 h3 h4 h5 h6
    obtain ⟨t, rfl, h7⟩ := hdynNode n l p ts a h1
    rw [h7, h2]
    rw [h.r0.nodeObs h.w0] at h5
    rw [h.ro.nodeObs h.wo] at h6
    have htop : (σ0.dynInfo l p).top = m + 1 := by rw [← htop0 l p d h3, h4]
    simp [ptFx, mergePar, deltaAt, htop, h5, h6]

theorem Spec.isParentEdge_lower {σ : Spec} {c a b : NodeId} (hne : a ≠ b) (h : σ.isParentEdge c (EdgeKey.of a b) = true) :
    ∃ ka kb, σ.key? a = some ka ∧ σ.key? b = some kb ∧ ((c = a ∧ ka.layer < kb.layer) ∨ (c = b ∧ kb.layer < ka.layer)) := by
  unfold Spec.isParentEdge at h
  rw [Bool.and_eq_true] at h
  obtain ⟨h1, h2⟩ := h
  rcases EdgeKey.ends rfl h1 with rfl | rfl
  · rw [EdgeKey.other_of_left] at h2
    split at h2
    · rename_i kc ko e1 e2
      exact ⟨kc, ko, e1, e2, .inl ⟨rfl, of_decide_eq_true h2⟩⟩
    · cases h2
  · rw [EdgeKey.of_comm, EdgeKey.other_of_left] at h2
    split at h2
    · rename_i kc ko e1 e2
      exact ⟨ko, kc, e2, e1, .inr ⟨rfl, of_decide_eq_true h2⟩⟩
    · cases h2

theorem SWF.orient {σ : Spec} (hw : SWF σ) {s t : NodeId} (h : σ.hasEdge s t = true) :
    ∃ a, σ.edges.find? (EdgeKey.of s t) = some ⟨s, t, a⟩ ∨ σ.edges.find? (EdgeKey.of t s) = some ⟨t, s, a⟩ := by
  obtain ⟨⟨x, y, a⟩, he⟩ := OMap.contains_eq_true.1 h
  have := (hw.edge _ _ he).1
  rcases EdgeKey.of_inj.1 this with ⟨rfl, rfl⟩ | ⟨rfl, rfl⟩
  · exact ⟨a, .inl he⟩
  · exact ⟨a, .inr (by rw [EdgeKey.of_comm]; exact he)⟩

theorem Spec.hasEdge_comm (σ : Spec) (s t : NodeId) : σ.hasEdge s t = σ.hasEdge t s := by
  unfold Spec.hasEdge; rw [EdgeKey.of_comm]

/-- the edges -/
theorem Merging.edges (h : Merging F cfg g o σ0 τ g') : g'.EdgesMerged g o cfg := by
  have hf := h.did.fits
  have hfrom := h.from_
  have hr' := h.inv.r
  have hw' := h.inv.w
  have hlay := (h.r0.shows h.w0).layers
  have hchild : ∀ s t, g'.childEnd s t = (σ0.merged (mergePar F cfg g σ0 τ) (mergeEvs σ0 cfg o)).lower s t := by
    intro s t
    unfold Graph.childEnd Spec.lower
    rw [hr'.getLayerForNode, hr'.getLayerForNode]
    rfl
  have hrep : ∀ {l a b}, g.hasLayer l = true → o.reportsEdge l a b → ∃ x y, MergeEv.rmEdge l x y ∈ mergeEvs σ0 cfg o ∧ EdgeKey.of x y = EdgeKey.of a b := by
    rintro l a b hl ⟨x, k, h1, h2, h3⟩
    exact ⟨k.k1, k.k2, mergeEvs_rmEdge.2 ⟨x, k, h1, by rw [← hlay]; exact hl, h2, rfl, rfl⟩, h3⟩
  refine ⟨?_, ?_, ?_, ?_, ?_, ?_⟩
  · intro a b e he
    rw [hr'.edgeObs hw'] at he
    -- offered by an iteration
    have hoff : ∀ {ev s' t' w}, ev ∈ mergeEvs σ0 cfg o → ev.offers = some (s', t', w) → EdgeKey.of a b = EdgeKey.of s' t' → e = ⟨s', t', w⟩ →
        ∃ s t w s' t', o.edgeObs s t = some ⟨s, t, w⟩ ∧ e = ⟨s', t', w⟩ ∧ EdgeKey.of a b = EdgeKey.of s' t' ∧
        ((o.inTraj s t ∧ s' = s ∧ t' = t) ∨ (¬ o.inTraj s t ∧ s' = cfg.getMergedId s ∧ t' = cfg.getMergedId t)) := by
      intro ev s' t' w hev ho hk hee
      cases ev <;> simp only [MergeEv.offers, Option.some.injEq, Prod.mk.injEq, reduceCtorEq] at ho
      case edge k s t s1 t1 a1 =>
        obtain ⟨rfl, rfl, rfl⟩ := ho
        obtain ⟨h1, h2, h3, h4⟩ := mergeEvs_edge h.ro h.wo hev
        refine ⟨s, t, a1, s1, t1, by rw [h.ro.edgeObs h.wo]; exact h1, hee, hk, ?_⟩
        cases k with
        | dyn l p => exact .inl ⟨⟨l, p, by rw [h.ro.getLayerForNode, h2], by rw [h.ro.getLayerForNode, h3]⟩, h4⟩
        | static l =>
          refine .inr ⟨?_, h4.1, h4.2.1⟩
          rintro ⟨l', p', h5, -⟩
          rw [h.ro.getLayerForNode, h2] at h5
          cases h5
      case inter s1 t1 a1 =>
        obtain ⟨rfl, rfl, rfl⟩ := ho
        obtain ⟨s, t, h1, h2, h3, h4⟩ := (mergeEvs_inter h.ro h.wo).1 hev
        refine ⟨s, t, a1, s1, t1, by rw [h.ro.edgeObs h.wo]; exact h1, hee, hk, .inr ⟨?_, h3, h4⟩⟩
        rintro ⟨l', p', h5, h6⟩
        rw [h.ro.getLayerForNode] at h5 h6
        exact h2 (h5.trans h6.symm)
    rcases merged_origin hf he with h1 | ⟨ev, hev, s, t, w, h1, h2, h3⟩
    · by_cases hcase : ∀ l, g.hasLayer l = true → o.reportsEdge l a b → ¬ g.inLayer l a b
      · exact .inl ⟨by rw [h.r0.edgeObs h.w0]; exact h1, hcase⟩
      · right
        simp only [Classical.not_forall, Classical.not_not] at hcase
        obtain ⟨l, hl, hre, ha, hb⟩ := hcase
        rw [h.r0.getLayerForNode] at ha hb
        obtain ⟨x, y, hxy, hk⟩ := hrep hl hre
        have hx : σ0.key? x = some (.static l) ∧ σ0.key? y = some (.static l) := by
          rcases EdgeKey.of_inj.1 hk with ⟨rfl, rfl⟩ | ⟨rfl, rfl⟩
          · exact ⟨ha, hb⟩
          · exact ⟨hb, ha⟩
        unfold Spec.edge? at he
        rw [← hk] at he
        obtain ⟨ev, hev, s, t, w, h2, h3, h4⟩ := h.did.edge_removed h.inv0 hfrom hxy hx.1 hx.2 he
        exact hoff hev h2 (hk.symm.trans h3) h4
    · exact .inr (hoff hev h1 h2 h3)
  · intro a b e he hn hee hpar
    rw [h.r0.edgeObs h.w0] at he
    rw [hr'.edgeObs hw']
    have hne : a ≠ b := by
      rintro rfl
      have : σ0.hasEdge a a = true := OMap.contains_eq_true.2 ⟨e, he⟩
      rw [h.w0.hasEdge_self] at this
      cases this
    refine merged_keeps h.did h.inv0 hfrom h.w0 he ?_ ?_ ?_
    · intro l n hm
      obtain ⟨h1, h2⟩ := h.reports.1 hm
      obtain ⟨h3, h4⟩ := hn l n h1 h2
      rw [Bool.eq_false_iff]
      intro hh
      rcases EdgeKey.ends rfl hh with h5 | h5
      · exact h3 h5
      · exact h4 h5
    · intro l x y hm hk hx hy
      obtain ⟨z, k, h1, h2, h3, rfl, rfl⟩ := mergeEvs_rmEdge.1 hm
      refine hee l (by rw [hlay]; exact h2) ⟨z, k, h1, h3, hk.symm⟩ ?_
      unfold Graph.inLayer
      rw [h.r0.getLayerForNode, h.r0.getLayerForNode]
      rcases EdgeKey.of_inj.1 hk with ⟨rfl, rfl⟩ | ⟨rfl, rfl⟩
      · exact ⟨hx, hy⟩
      · exact ⟨hy, hx⟩
    · intro hp s' t' w ks kt hm hst hq hks hkt
      obtain ⟨s, t, h1, h2, rfl, rfl⟩ := (mergeEvs_inter h.ro h.wo).1 hm
      rw [Bool.eq_false_iff]
      intro hpe
      refine hpar hp s t w (by rw [h.ro.edgeObs h.wo]; exact h1) (by rw [h.ro.getLayerForNode, h.ro.getLayerForNode]; exact h2) hst hq ?_
      rw [hchild, Spec.lower_of hks hkt]
      obtain ⟨ka, kb, e1, e2, e3⟩ := Spec.isParentEdge_lower hne hpe
      exact ⟨ka, kb, by rw [h.r0.getLayerForNode, e1], by rw [h.r0.getLayerForNode, e2], e3⟩
  · rintro s t he ⟨l, p, hs, ht⟩
    rw [h.ro.hasEdge h.wo] at he
    rw [h.ro.getLayerForNode] at hs ht
    rw [hr'.hasEdge hw']
    obtain ⟨w, h1 | h1⟩ := h.wo.orient (by injection he)
    · rw [merged_dynEdge h.ro h.wo h.did h.inv0 hfrom h.rmOk h.home h1 hs ht]
    · rw [Spec.hasEdge_comm, merged_dynEdge h.ro h.wo h.did h.inv0 hfrom h.rmOk h.home h1 ht hs]
  · rintro s t l he ⟨hs, ht⟩ hl hne ⟨hs', ht'⟩
    rw [h.ro.hasEdge h.wo] at he
    rw [h.ro.getLayerForNode] at hs ht
    rw [hr'.getLayerForNode] at hs' ht'
    rw [hlay] at hl
    rw [hr'.hasEdge hw', hr'.hasEdge hw', Res.ok.injEq, Res.ok.injEq]
    obtain ⟨w, h1 | h1⟩ := h.wo.orient (by injection he)
    · exact merged_staticEdge h.ro h.wo h.did h.inv0 hfrom h.rmOk h.home h1 hs ht hl hne hs' ht'
    · have := merged_staticEdge h.ro h.wo h.did h.inv0 hfrom h.rmOk h.home h1 ht hs hl (Ne.symm hne) ht' hs'
      rw [Spec.hasEdge_comm _ t s, Spec.hasEdge_comm _ (cfg.getMergedId t)] at this
      exact this
  · intro hp s t he hk hne hs' ht'
    rw [h.ro.hasEdge h.wo] at he
    rw [h.ro.getLayerForNode, h.ro.getLayerForNode] at hk
    rw [hr'.hasNode] at hs' ht'
    rw [hr'.hasEdge hw', Res.ok.injEq]
    obtain ⟨w, h1 | h1⟩ := h.wo.orient (by injection he)
    · exact merged_interEdge h.did hp ((mergeEvs_inter h.ro h.wo).2 ⟨s, t, h1, hk, rfl, rfl⟩) hne hs' ht'
    · rw [Spec.hasEdge_comm]
      exact merged_interEdge h.did hp ((mergeEvs_inter h.ro h.wo).2 ⟨t, s, h1, Ne.symm hk, rfl, rfl⟩) (Ne.symm hne) ht' hs'
  · intro hp s t w he hk hne hs' ht'
    rw [h.ro.edgeObs h.wo] at he
    rw [h.ro.getLayerForNode, h.ro.getLayerForNode] at hk
    rw [hr'.hasNode] at hs' ht'
    obtain ⟨ks, hks⟩ := Spec.key_of_contains hs'
    obtain ⟨kt, hkt⟩ := Spec.key_of_contains ht'
    obtain ⟨u', v', w', h1, h2, h3⟩ := merged_parentEdge h.did hp ((mergeEvs_inter h.ro h.wo).2 ⟨s, t, he, hk, rfl, rfl⟩) hne hks hkt
    obtain ⟨u, v, h4, h5, rfl, rfl⟩ := (mergeEvs_inter h.ro h.wo).1 h1
    refine ⟨u, v, w', by rw [h.ro.edgeObs h.wo]; exact h4, by rw [h.ro.getLayerForNode, h.ro.getLayerForNode]; exact h5, ?_, ?_⟩
    · rw [hchild, hchild]; exact h2
    · rw [hr'.hasEdge hw', h3]

/-- `mergeGraph` succeeds. -/
theorem R.merging (r0 : R g σ0) (w0 : SWF σ0) (t0 : σ0.Tops) (ro : R o τ) (wo : SWF τ) (to : τ.Tops) (m : g.Mergeable o cfg) :
    ∃ g' ol, Graph.mergeGraph F g o cfg = .ok (g', { o with layers := ol }, true) ∧ Merging F cfg g o σ0 τ g' ∧ R { o with layers := ol } τ ∧
      ∀ l, ol.find? l = if σ0.layerIds.contains l then (o.layers.find? l).map (Layer.reported cfg.clearRemoved) else o.layers.find? l := by
  have hh : ∀ n k k', σ0.key? n = some k → τ.key? n = some k' → k = k' := fun n k k' h1 h2 =>
    m.home n k k' (by rw [r0.getLayerForNode, h1]) (by rw [ro.getLayerForNode, h2])
  have hmap : cfg.enforceParent = true →
      ∀ n k k', τ.key? n = some k → (σ0.key? (cfg.getMergedId n) = some k' ∨ τ.key? (cfg.getMergedId n) = some k') → k' = k := by
    intro hp n k k' h1 h2
    refine m.map hp n k k' (by rw [ro.getLayerForNode, h1]) ?_
    rw [r0.getLayerForNode, ro.getLayerForNode]
    exact h2
  obtain ⟨g', ol, e, hd, hi, hol⟩ := r0.mergeGraph (F := F) (cfg := cfg) w0 ro wo to hh (fun l p hl => m.traj r0 w0 t0 ro to hl) (m.removable r0 w0 ro) hmap
  refine ⟨g', ol, e, ⟨r0, w0, t0, ro, wo, to, m, hd, ?_, hi⟩, ro.reported hol, hol⟩
  refine ⟨r0, w0, rfl, fun n k h => .inl h, fun n k h _ => h, ?_, ?_⟩
  · intro l n ha
    have : g.isMerged (.static l) n := by simpa [mergePar] using ha
    exact r0.merged_not_live this
  · intro l n
    simp [mergePar]

end
end Verif
