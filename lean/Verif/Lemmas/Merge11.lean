import Verif.Lemmas.Merge10
/-! # The iterations of `mergeGraph`, by kind, and the nodes afterwards -/

namespace Verif

section
variable {F : FloatOps} {cfg : MergeConfig} {g o g' : Graph} {σ0 τ : Spec} {P : MergePar}

theorem mem_mergeEvs {ev : MergeEv} : ev ∈ mergeEvs σ0 cfg o ↔
    (∃ l p d, o.dynLayer? l p = some d ∧ ev ∈ dynEvs ((l, p), d)) ∨
    (∃ l x, o.layers.find? l = some x ∧ σ0.layerIds.contains l = true ∧ ev ∈ staticEvs cfg (l, x)) ∨
    ev ∈ interEvs cfg o.inter.edges ∨ ev ∈ interEvs cfg o.dynInter.edges := by
  unfold mergeEvs
  rw [List.mem_append, List.mem_append, List.mem_append, List.mem_flatMap, List.mem_flatMap]
  constructor
  · rintro (⟨⟨⟨l, p⟩, d⟩, h1, h2⟩ | ⟨⟨l, x⟩, h1, h2⟩ | h | h)
    · exact .inl ⟨l, p, d, Graph.mem_dynEntries.1 h1, h2⟩
    · refine .inr (.inl ⟨l, x, OMap.mem_toList.1 h1, ?_⟩)
      unfold staticEvs? at h2
      split at h2
      · rename_i hl; exact ⟨hl, h2⟩
      · cases h2
    · exact .inr (.inr (.inl h))
    · exact .inr (.inr (.inr h))
  · rintro (⟨l, p, d, h1, h2⟩ | ⟨l, x, h1, hl, h2⟩ | h | h)
    · exact .inl ⟨((l, p), d), Graph.mem_dynEntries.2 h1, h2⟩
    · refine .inr (.inl ⟨(l, x), OMap.mem_toList.2 h1, ?_⟩)
      unfold staticEvs?
      rw [if_pos hl]; exact h2
    · exact .inr (.inr (.inl h))
    · exact .inr (.inr (.inr h))

theorem mergeEvs_from (ho : R o τ) (hto : τ.Tops) (ht : ∀ l p, o.hasDynLayer l p = true → Traj σ0 τ l p) (hrm : Removable σ0 τ o)
    {ev : MergeEv} (he : ev ∈ mergeEvs σ0 cfg o) : ev.From τ := by
  rcases mem_mergeEvs.1 he with ⟨l, p, d, h1, h2⟩ | ⟨l, x, h1, hl, h2⟩ | h | h
  · refine (dynEvs_from ho hto h1 (ht l p ?_).other h2).1
    unfold Graph.hasDynLayer; rw [h1]; rfl
  · exact staticEvs_from ho hrm h1 hl h2
  all_goals
    obtain ⟨_, _, _, _, _, rfl⟩ := interEvs_mem.1 h
    trivial

/-- the iteration of a static node -/
theorem mergeEvs_node (ho : R o τ) {n : NodeId} {x : NodeInfo} {l : LayerId} (hx : τ.nodes.find? n = some x) (hk : x.key = .static l)
    (hwτ : SWF τ) (hl : σ0.layerIds.contains l = true) : MergeEv.node l n x.attrs ∈ mergeEvs σ0 cfg o := by
  have hkey := (hwτ.node n x hx).1
  rw [hk] at hkey
  have hlay := ho.static_layer l
  rw [show τ.layerIds.contains l = true from hkey] at hlay
  obtain ⟨y, hy⟩ := Option.isSome_iff_exists.1 hlay
  refine mem_mergeEvs.2 (.inr (.inl ⟨l, y, hy, hl, ?_⟩))
  have hb : o.layerAt? (.static l) = some (.static y) := by simp [Graph.layerAt?, hy]
  have hrec := RV.node ho (.static l) n
  rw [Graph.view_node_of_layerAt? hb, Spec.nodeRec_key hx hk] at hrec
  unfold staticEvs
  refine List.mem_append_right _ (List.mem_append_right _ (List.mem_append_left _ ?_))
  rw [List.mem_filterMap]
  exact ⟨(n, τ.mkNode n x), OMap.mem_toList.2 hrec, rfl⟩

theorem dynNodeEvs_mem {l : LayerId} {p : Prefix} {i j : Nat} {ns : List (Option Node)} {y : Node} {t : Stamp} {a : NodeAttrs}
    (h : ns[j]? = some (some y)) (h1 : y.timestamp = some t) (h2 : y.attrs = some a) : MergeEv.dynNode l p (p.makeId (i + j)) t a ∈ dynNodeEvs l p i ns := by
  induction ns generalizing i j with
  | nil => simp at h
  | cons x ns ih =>
    cases j with
    | zero =>
      simp only [List.getElem?_cons_zero, Option.some.injEq] at h
      subst h
      simp [dynNodeEvs, h1, h2]
    | succ j =>
      have := ih (i := i + 1) (j := j) (by simpa using h)
      rw [show i + 1 + j = i + (j + 1) by omega] at this
      cases x with
      | none => exact this
      | some z =>
        unfold dynNodeEvs
        split
        · exact List.mem_cons_of_mem _ this
        · exact this

/-- the iteration of a dynamic node -/
theorem mergeEvs_dynNode (ho : R o τ) (hwτ : SWF τ) {n : NodeId} {x : NodeInfo} {l : LayerId} {p : Prefix} {t : Stamp}
    (hx : τ.nodes.find? n = some x) (hk : x.key = .dyn l p) (hst : x.stamp = some t) : MergeEv.dynNode l p n t x.attrs ∈ mergeEvs σ0 cfg o := by
  have hkey := (hwτ.node n x hx).1
  rw [hk] at hkey
  obtain ⟨d, hd⟩ := Option.isSome_iff_exists.1 ((ho.dyn_layer l p).trans hkey)
  refine mem_mergeEvs.2 (.inl ⟨l, p, d, hd, ?_⟩)
  have hb : o.layerAt? (.dyn l p) = some (.dyn d) := by simp [Graph.layerAt?, hd]
  obtain ⟨i1, i2, i3, i4, i6, i5⟩ := RV.info ho (.dyn l p) (BaseLayer.info (.dyn d)) (by simp [Graph.view, hb])
  simp only [BaseLayer.info] at i2
  have hrec := RV.node ho (.dyn l p) n
  rw [Graph.view_node_of_layerAt? hb, Spec.nodeRec_key hx hk] at hrec
  obtain ⟨-, hslot⟩ := BaseLayer.nd_dyn_lt hrec
  obtain ⟨hp, hm, -⟩ := hwτ.dyn n x l p hx hk
  have := dynNodeEvs_mem (l := l) (p := p) (i := 0) (t := t) (a := x.attrs) hslot hst rfl
  rw [Nat.zero_add, i2, Prefix.makeId_index hm] at this
  exact List.mem_cons_of_mem _ (List.mem_append_left _ this)

theorem mergeEvs_rmNode {l : LayerId} {n : NodeId} : MergeEv.rmNode l n ∈ mergeEvs σ0 cfg o ↔
    ∃ x, o.layers.find? l = some x ∧ σ0.layerIds.contains l = true ∧ n ∈ (x.getRemovedNodes false).2 := by
  rw [mem_mergeEvs]
  constructor
  · rintro (⟨l', p, d, h1, h2⟩ | ⟨l', x, h1, hl, h2⟩ | h | h)
    · simp only [dynEvs, List.mem_cons, List.mem_append, reduceCtorEq, false_or] at h2
      rcases h2 with h2 | h2
      · obtain ⟨_, _, _, _, _, _, _, e⟩ := dynNodeEvs_node h2; cases e
      · obtain ⟨_, _, _, _, _, e⟩ := edgeEvs_mem.1 h2; cases e
    · unfold staticEvs at h2
      simp only [List.mem_append, List.mem_map, List.mem_filterMap, Option.map_eq_some_iff, reduceCtorEq, and_false, exists_false, false_or] at h2
      rcases h2 with ⟨m, hm, e⟩ | h2
      · cases e; exact ⟨x, h1, hl, hm⟩
      · obtain ⟨_, _, _, _, _, e⟩ := edgeEvs_mem.1 h2; cases e
    · obtain ⟨_, _, _, _, _, e⟩ := interEvs_mem.1 h; cases e
    · obtain ⟨_, _, _, _, _, e⟩ := interEvs_mem.1 h; cases e
  · rintro ⟨x, h1, hl, h2⟩
    exact .inr (.inl ⟨l, x, h1, hl, List.mem_append_left _ (List.mem_map.2 ⟨n, h2, rfl⟩)⟩)

theorem mergeEvs_rmEdge {l : LayerId} {a b : NodeId} : MergeEv.rmEdge l a b ∈ mergeEvs σ0 cfg o ↔
    ∃ x k, o.layers.find? l = some x ∧ σ0.layerIds.contains l = true ∧ k ∈ (x.edges.getRemoved false).2 ∧ k.k1 = a ∧ k.k2 = b := by
  rw [mem_mergeEvs]
  constructor
  · rintro (⟨l', p, d, h1, h2⟩ | ⟨l', x, h1, hl, h2⟩ | h | h)
    · simp only [dynEvs, List.mem_cons, List.mem_append, reduceCtorEq, false_or] at h2
      rcases h2 with h2 | h2
      · obtain ⟨_, _, _, _, _, _, _, e⟩ := dynNodeEvs_node h2; cases e
      · obtain ⟨_, _, _, _, _, e⟩ := edgeEvs_mem.1 h2; cases e
    · unfold staticEvs at h2
      simp only [List.mem_append, List.mem_map, List.mem_filterMap, Option.map_eq_some_iff, reduceCtorEq, and_false, exists_false, false_or] at h2
      rcases h2 with ⟨m, hm, e⟩ | h2
      · cases e; exact ⟨x, m, h1, hl, hm, rfl, rfl⟩
      · obtain ⟨_, _, _, _, _, e⟩ := edgeEvs_mem.1 h2; cases e
    · obtain ⟨_, _, _, _, _, e⟩ := interEvs_mem.1 h; cases e
    · obtain ⟨_, _, _, _, _, e⟩ := interEvs_mem.1 h; cases e
  · rintro ⟨x, k, h1, hl, h2, rfl, rfl⟩
    exact .inr (.inl ⟨l, x, h1, hl, List.mem_append_right _ (List.mem_append_left _ (List.mem_map.2 ⟨k, h2, rfl⟩))⟩)

/-- the iteration of an edge inside a layer -/
theorem mergeEvs_edge (ho : R o τ) (hwτ : SWF τ) {k : LayerKey} {s t s' t' : NodeId} {a : EdgeAttrs}
    (he : MergeEv.edge k s t s' t' a ∈ mergeEvs σ0 cfg o) :
    τ.edges.find? (EdgeKey.of s t) = some ⟨s, t, a⟩ ∧ τ.key? s = some k ∧ τ.key? t = some k ∧
      match k with
      | .dyn _ _ => s' = s ∧ t' = t
      | .static l => s' = cfg.getMergedId s ∧ t' = cfg.getMergedId t ∧ σ0.layerIds.contains l = true := by
  have core : ∀ {k : LayerKey} {q : EdgeKey} {e : Edge} {a : EdgeAttrs}, (o.view.ec (.within k)).edges.find? q = some e → e.info = some a →
      τ.edges.find? (EdgeKey.of e.source e.target) = some ⟨e.source, e.target, a⟩ ∧ τ.key? e.source = some k ∧ τ.key? e.target = some k := by
    intro k q e a h1 h2
    obtain ⟨r1, r2, r3, r4⟩ := ho.edge_rec hwτ h1
    rw [r1] at r2 r4
    have hq : τ.hasEdge e.source e.target = true := OMap.contains_eq_true.2 ⟨_, r2⟩
    obtain ⟨-, hs, ht⟩ := hwτ.hasEdge_nodes hq
    obtain ⟨ka, hka⟩ := Spec.key_of_contains hs
    obtain ⟨kb, hkb⟩ := Spec.key_of_contains ht
    rw [Spec.placeOf_of hka hkb] at r4
    unfold place at r4
    split at r4
    · rename_i hkk
      simp only [Option.some.injEq, Place.within.injEq] at r4
      refine ⟨?_, by rw [hka, r4], by rw [hkb, ← hkk, r4]⟩
      rw [r2]
      simp [Spec.edgeEntry, h2]
    · cases r4
  rcases mem_mergeEvs.1 he with ⟨l', p, d, h1, h2⟩ | ⟨l', x, h1, hl, h2⟩ | h | h
  · simp only [dynEvs, List.mem_cons, List.mem_append, reduceCtorEq, false_or] at h2
    have hb : o.layerAt? (.dyn l' p) = some (.dyn d) := by simp [Graph.layerAt?, h1]
    have hec : o.view.ec (.within (.dyn l' p)) = d.edges := by simp [Graph.view, Graph.ecAt?, hb, BaseLayer.ec]
    rcases h2 with h2 | h2
    · obtain ⟨_, _, _, _, _, _, _, e⟩ := dynNodeEvs_node h2; cases e
    · obtain ⟨q, e, a', r1, r2, r⟩ := edgeEvs_mem.1 h2
      cases r
      rw [← hec] at r1
      obtain ⟨c1, c2, c3⟩ := core r1 r2
      exact ⟨c1, c2, c3, rfl, rfl⟩
  · have hb : o.layerAt? (.static l') = some (.static x) := by simp [Graph.layerAt?, h1]
    have hec : o.view.ec (.within (.static l')) = x.edges := by simp [Graph.view, Graph.ecAt?, hb, BaseLayer.ec]
    unfold staticEvs at h2
    simp only [List.mem_append, List.mem_map, List.mem_filterMap, Option.map_eq_some_iff, reduceCtorEq, and_false, exists_false, false_or] at h2
    obtain ⟨q, e, a', r1, r2, r⟩ := edgeEvs_mem.1 h2
    cases r
    rw [← hec] at r1
    obtain ⟨c1, c2, c3⟩ := core r1 r2
    exact ⟨c1, c2, c3, rfl, rfl, hl⟩
  · obtain ⟨_, _, _, _, _, e⟩ := interEvs_mem.1 h; cases e
  · obtain ⟨_, _, _, _, _, e⟩ := interEvs_mem.1 h; cases e

/-- the iteration of an edge between layers -/
theorem mergeEvs_inter (ho : R o τ) (hwτ : SWF τ) {s' t' : NodeId} {a : EdgeAttrs} : MergeEv.inter s' t' a ∈ mergeEvs σ0 cfg o ↔
    ∃ s t, τ.edges.find? (EdgeKey.of s t) = some ⟨s, t, a⟩ ∧ τ.key? s ≠ τ.key? t ∧ s' = cfg.getMergedId s ∧ t' = cfg.getMergedId t := by
  have core : ∀ {dyn : Bool} {q : EdgeKey} {e : Edge} {a : EdgeAttrs}, (o.view.ec (.across dyn)).edges.find? q = some e → e.info = some a →
      τ.edges.find? (EdgeKey.of e.source e.target) = some ⟨e.source, e.target, a⟩ ∧ τ.key? e.source ≠ τ.key? e.target := by
    intro dyn q e a h1 h2
    obtain ⟨r1, r2, r3, r4⟩ := ho.edge_rec hwτ h1
    rw [r1] at r2 r4
    have hq : τ.hasEdge e.source e.target = true := OMap.contains_eq_true.2 ⟨_, r2⟩
    obtain ⟨-, hs, ht⟩ := hwτ.hasEdge_nodes hq
    obtain ⟨ka, hka⟩ := Spec.key_of_contains hs
    obtain ⟨kb, hkb⟩ := Spec.key_of_contains ht
    rw [Spec.placeOf_of hka hkb] at r4
    refine ⟨by rw [r2]; simp [Spec.edgeEntry, h2], ?_⟩
    rw [hka, hkb]
    rintro e
    injection e with e
    subst e
    simp [place] at r4
  rw [mem_mergeEvs]
  constructor
  · rintro (⟨l', p, d, h1, h2⟩ | ⟨l', x, h1, hl, h2⟩ | h | h)
    · simp only [dynEvs, List.mem_cons, List.mem_append, reduceCtorEq, false_or] at h2
      rcases h2 with h2 | h2
      · obtain ⟨_, _, _, _, _, _, _, e⟩ := dynNodeEvs_node h2; cases e
      · obtain ⟨_, _, _, _, _, e⟩ := edgeEvs_mem.1 h2; cases e
    · unfold staticEvs at h2
      simp only [List.mem_append, List.mem_map, List.mem_filterMap, Option.map_eq_some_iff, reduceCtorEq, and_false, exists_false, false_or] at h2
      obtain ⟨_, _, _, _, _, e⟩ := edgeEvs_mem.1 h2; cases e
    · obtain ⟨q, e, a', r1, r2, r⟩ := interEvs_mem.1 h
      cases r
      exact ⟨_, _, (core (dyn := false) r1 r2).1, (core (dyn := false) r1 r2).2, rfl, rfl⟩
    · obtain ⟨q, e, a', r1, r2, r⟩ := interEvs_mem.1 h
      cases r
      exact ⟨_, _, (core (dyn := true) r1 r2).1, (core (dyn := true) r1 r2).2, rfl, rfl⟩
  · rintro ⟨s, t, h1, h2, rfl, rfl⟩
    have hq : τ.hasEdge s t = true := OMap.contains_eq_true.2 ⟨_, h1⟩
    obtain ⟨-, hs, ht⟩ := hwτ.hasEdge_nodes hq
    obtain ⟨ka, hka⟩ := Spec.key_of_contains hs
    obtain ⟨kb, hkb⟩ := Spec.key_of_contains ht
    have hne : ka ≠ kb := by rintro rfl; exact h2 (hka.trans hkb.symm)
    have := RV.edge_some ho hka hkb h1
    rw [place, if_neg hne] at this
    cases hd : (ka.dynamic || kb.dynamic) with
    | false =>
      rw [hd] at this
      exact .inr (.inr (.inl (interEvs_mem.2 ⟨_, _, a, this, rfl, rfl⟩)))
    | true =>
      rw [hd] at this
      exact .inr (.inr (.inr (interEvs_mem.2 ⟨_, _, a, this, rfl, rfl⟩)))

/-! ## Nodes -/

theorem ptFx_idem (ev : MergeEv) (m : NodeId) (x : Option NodeInfo) : ptFx P ev m (ptFx P ev m x) = ptFx P ev m x := by
  cases ev with
  | dynNode l p n t a =>
    unfold ptFx
    by_cases h : n = m
    · cases x <;> cases hu : P.cfg.updateDynamic <;> simp [h, NodeAttrs.position_setPosition]
    · simp [h]
  | node l n a =>
    unfold ptFx
    by_cases h : n = m
    · cases haw : P.away l n
      · cases x with
        | none => cases hu : (P.cfg.updates l && (P.cfg.updateArchived || a.isActive)) <;> simp only [h, if_true, Bool.false_eq_true, if_false, h ▸ haw, hu]
        | some i =>
          cases hu : (P.cfg.updates l && (P.cfg.updateArchived || i.attrs.isActive)) <;>
            simp only [h, if_true, Bool.false_eq_true, if_false, h ▸ haw, hu, ite_self]
      · simp [h, h ▸ haw]
    · simp [h]
  | rmNode l n =>
    unfold ptFx
    dsimp only
    split <;> rfl
  | _ => rfl

/-- a run with only one kind of iteration at `m` -/
theorem foldl_single {evs : List MergeEv} {m : NodeId} {e : MergeEv} (hall : ∀ ev ∈ evs, ev.node? = some m → ev = e)
    (hi : ∀ x, ptFx P e m (ptFx P e m x) = ptFx P e m x) (x : Option NodeInfo) :
    evs.foldl (fun x ev => ptFx P ev m x) (ptFx P e m x) = ptFx P e m x ∧
    (e ∈ evs → evs.foldl (fun x ev => ptFx P ev m x) x = ptFx P e m x) := by
  induction evs generalizing x with
  | nil => exact ⟨rfl, nofun⟩
  | cons ev evs ih =>
    have hall' : ∀ ev ∈ evs, ev.node? = some m → ev = e := fun ev h => hall ev (List.mem_cons_of_mem _ h)
    have hcase : ev = e ∨ ∀ x, ptFx P ev m x = x := by
      by_cases h : ev.node? = some m
      · exact .inl (hall ev List.mem_cons_self h)
      · exact .inr (ptFx_other h)
    simp only [List.foldl_cons]
    refine ⟨?_, ?_⟩
    · rcases hcase with rfl | h
      · rw [hi]; exact (ih hall' x).1
      · rw [h]; exact (ih hall' x).1
    · intro hmem
      rcases hcase with rfl | h
      · exact (ih hall' x).1
      · rw [h]
        rcases List.mem_cons.1 hmem with rfl | hmem
        · have h1 := (ih hall' x).1
          rw [h] at h1
          rw [h]
          exact h1
        · exact (ih hall' x).2 hmem

/-- a run that only removes `m` -/
theorem foldl_gone {evs : List MergeEv} {m : NodeId} (hall : ∀ ev ∈ evs, ev.node? = some m → ∃ l, ev = .rmNode l m) (x : Option NodeInfo) :
    evs.foldl (fun x ev => ptFx P ev m x) none = none ∧
    ((∃ l, MergeEv.rmNode l m ∈ evs) → evs.foldl (fun x ev => ptFx P ev m x) x = none) := by
  induction evs generalizing x with
  | nil => exact ⟨rfl, nofun⟩
  | cons ev evs ih =>
    have hall' : ∀ ev ∈ evs, ev.node? = some m → ∃ l, ev = .rmNode l m := fun ev h => hall ev (List.mem_cons_of_mem _ h)
    have hcase : (∀ x, ptFx P ev m x = none) ∨ ((∀ l, ev ≠ .rmNode l m) ∧ ∀ x, ptFx P ev m x = x) := by
      by_cases h : ev.node? = some m
      · obtain ⟨l, rfl⟩ := hall ev List.mem_cons_self h
        exact .inl (fun x => by simp [ptFx])
      · refine .inr ⟨?_, ptFx_other h⟩
        rintro l rfl
        exact h rfl
    simp only [List.foldl_cons]
    constructor
    · rcases hcase with h | ⟨-, h⟩ <;> (rw [h]; exact (ih hall' x).1)
    · rintro ⟨l, hmem⟩
      rcases hcase with h | ⟨h1, h⟩
      · rw [h]; exact (ih hall' x).1
      · rw [h]
        rcases List.mem_cons.1 hmem with rfl | hmem
        · exact (h1 l rfl).elim
        · exact (ih hall' x).2 ⟨l, hmem⟩

end
end Verif
