import Verif.Lemmas.Merge13
/-! # Every edge of the other graph has a counterpart -/

namespace Verif

/-- no removal in the static layer `l` -/
def MergeEv.rmIn (l : LayerId) : MergeEv → Prop
  | .rmNode l' _ => l' = l
  | .rmEdge l' _ _ => l' = l
  | _ => False

section
variable {cfg : MergeConfig} {g o g' : Graph} {σ σ0 τ : Spec} {P : MergePar}

theorem MInv.key_same {g1 g2 : Graph} {σ1 σ2 : Spec} (h1 : MInv P σ0 τ g1 σ1) (h2 : MInv P σ0 τ g2 σ2) {n : NodeId} {k k' : LayerKey}
    (e1 : σ1.key? n = some k) (e2 : σ2.key? n = some k') : k' = k := by
  rcases h1.keys n k e1 with a | ⟨a, b⟩ <;> rcases h2.keys n k' e2 with c | ⟨c, d⟩
  · rw [a] at c; cases c; rfl
  · rw [a] at c; cases c
  · rw [a] at c; cases c
  · rw [b] at d; cases d; rfl

/-- the removals of a run are as the other graph reports them -/
def RmOk (σ0 τ : Spec) (evs : List MergeEv) : Prop :=
  ∀ l n, MergeEv.rmNode l n ∈ evs → τ.key? n = none ∧ (σ0.key? n = none ∨ σ0.key? n = some (.static l))

/-- An edge inside a layer stays when nothing is removed from that layer any more. -/
theorem Did.keeps_inside {evs : List MergeEv} (hd : Did P g σ evs g') (hm : MInv P σ0 τ g σ) (hfrom : ∀ ev ∈ evs, ev.From τ)
    (hrm : RmOk σ0 τ evs) {k : LayerKey} {s t : NodeId} (hs : σ.key? s = some k) (ht : σ.key? t = some k)
    (hno : ∀ l, k = .static l → ∀ ev ∈ evs, ¬ ev.rmIn l) (h : σ.hasEdge s t = true) : (σ.merged P evs).hasEdge s t = true := by
  obtain ⟨e, he⟩ := OMap.contains_eq_true.1 h
  refine OMap.contains_eq_true.2 ⟨e, ?_⟩
  refine hd.keeps hm hfrom he ?_
  intro ev hev g2 σ2 hm2 he2 hk
  have hq : σ2.hasEdge s t = true := OMap.contains_eq_true.2 ⟨e, he2⟩
  obtain ⟨-, hs2, ht2⟩ := hm2.w.hasEdge_nodes hq
  obtain ⟨ka, hka⟩ := Spec.key_of_contains hs2
  obtain ⟨kb, hkb⟩ := Spec.key_of_contains ht2
  have e1 := hm.key_same hm2 hs hka
  have e2 := hm.key_same hm2 ht hkb
  subst e1
  subst e2
  obtain ⟨l, rfl, h1⟩ := kills_inside hm2 hka hkb (fun l n e => hrm l n (e ▸ hev)) hk
  rcases h1 with ⟨n, rfl, -⟩ | ⟨a, b, rfl, -⟩
  · exact hno l rfl _ hev rfl
  · exact hno l rfl _ hev rfl

/-- An edge iteration leaves the edge, or its image, behind. -/
theorem Did.lands {A B : List MergeEv} {k : LayerKey} {s t s' t' : NodeId} {a : EdgeAttrs} (hd : Did P g σ0 (A ++ .edge k s t s' t' a :: B) g')
    (hm : MInv P σ0 τ g σ0) (hfrom : ∀ ev ∈ A ++ .edge k s t s' t' a :: B, ev.From τ) (hrm : RmOk σ0 τ (A ++ .edge k s t s' t' a :: B))
    (hno : ∀ l, k = .static l → ∀ ev ∈ B, ¬ ev.rmIn l) (hne : s' ≠ t')
    (hs : (σ0.merged P A).key? s' = some k) (ht : (σ0.merged P A).key? t' = some k) :
    (σ0.merged P (A ++ .edge k s t s' t' a :: B)).hasEdge s t = true ∨ (σ0.merged P (A ++ .edge k s t s' t' a :: B)).hasEdge s' t' = true := by
  obtain ⟨g1, d1, d2⟩ := hd.split
  have hm1 := hm.run d1 (fun ev hev => hfrom ev (List.mem_append_left _ hev))
  obtain ⟨g2, dd, hf, d3⟩ := d2.split_cons
  have hm2 := hm1.step dd hf trivial
  have hfrom3 : ∀ ev ∈ B, ev.From τ := fun ev hev => hfrom ev (List.mem_append_right _ (List.mem_cons_of_mem _ hev))
  have hrm3 : RmOk σ0 τ B := fun l n hev => hrm l n (List.mem_append_right _ (List.mem_cons_of_mem _ hev))
  rw [Spec.merged_append, Spec.merged_cons]
  generalize σ0.merged P A = σ at *
  have hkeys : ∀ n, (σ.after (plan P σ (.edge k s t s' t' a))).key? n = σ.key? n := fun n => by
    rw [Spec.key?, plan_nodes _ hf]; rfl
  have hstep := plan_edge P σ k s t s' t' a
  by_cases hc : σ.key? s = some k ∧ σ.key? t = some k ∧ σ.hasEdge s t = true
  · refine .inl (d3.keeps_inside hm2 hfrom3 hrm3 (k := k) ?_ ?_ hno ?_)
    · rw [hkeys]; exact hc.1
    · rw [hkeys]; exact hc.2.1
    · rw [hstep, if_pos hc]; exact hc.2.2
  · refine .inr (d3.keeps_inside hm2 hfrom3 hrm3 (k := k) ?_ ?_ hno ?_)
    · rw [hkeys]; exact hs
    · rw [hkeys]; exact ht
    · rw [hstep, if_neg hc, if_neg hne, if_pos ⟨hs, ht⟩]
      simp only [Spec.after_cons, Spec.after_nil, Spec.step, Spec.ans, Spec.insertEdge]
      rw [if_neg hne]
      have c1 : σ.nodes.contains s' = true := by rw [Spec.contains_of_key?, hs]; rfl
      have c2 : σ.nodes.contains t' = true := by rw [Spec.contains_of_key?, ht]; rfl
      rw [c1, c2]
      simp only [Bool.not_true, Bool.or_self, Bool.false_eq_true, if_false]
      split
      · assumption
      · simp [Spec.addEdge, Spec.hasEdge, OMap.contains_eq_true]

/-! ## Where the iterations of a layer stand -/

theorem mem_split_flatMap {α β : Type} {f : α → List β} {xs : List α} {x : α} (h : x ∈ xs) : ∃ A B, xs = A ++ x :: B ∧ xs.flatMap f = A.flatMap f ++ (f x ++ B.flatMap f) := by
  obtain ⟨A, B, rfl⟩ := List.append_of_mem h
  exact ⟨A, B, rfl, by simp⟩

/-- the edges of a dynamic layer come after its nodes -/
theorem mergeEvs_dynSplit (ho : R o τ) (hwτ : SWF τ) {s t : NodeId} {a : EdgeAttrs} {l : LayerId} {p : Prefix}
    (he : τ.edges.find? (EdgeKey.of s t) = some ⟨s, t, a⟩) (hs : τ.key? s = some (.dyn l p)) (ht : τ.key? t = some (.dyn l p)) :
    ∃ A B, mergeEvs σ0 cfg o = A ++ .edge (.dyn l p) s t s t a :: B ∧
      ∀ n x ts, τ.nodes.find? n = some x → x.key = .dyn l p → x.stamp = some ts → MergeEv.dynNode l p n ts x.attrs ∈ A := by
  obtain ⟨xs, hxs, hxk⟩ := Spec.exists_of_key? hs
  have hkey := (hwτ.node s xs hxs).1
  rw [hxk] at hkey
  obtain ⟨d, hd⟩ := Option.isSome_iff_exists.1 ((ho.dyn_layer l p).trans hkey)
  have hb : o.layerAt? (.dyn l p) = some (.dyn d) := by simp [Graph.layerAt?, hd]
  have hec : o.view.ec (.within (.dyn l p)) = d.edges := by simp [Graph.view, Graph.ecAt?, hb, BaseLayer.ec]
  have hrec := RV.edge_some ho hs ht he
  rw [place, if_pos rfl, hec] at hrec
  have hmem : MergeEv.edge (.dyn l p) s t s t a ∈ edgeEvs (.dyn l p) id d.edges.edges := edgeEvs_mem.2 ⟨_, _, a, hrec, rfl, rfl⟩
  obtain ⟨E1, E2, hE⟩ := List.append_of_mem hmem
  obtain ⟨X, Y, -, hflat⟩ := mem_split_flatMap (f := dynEvs) (Graph.mem_dynEntries.2 hd)
  refine ⟨X.flatMap dynEvs ++ (.create l p :: (dynNodeEvs l p 0 d.nodes ++ E1)), E2 ++ (Y.flatMap dynEvs ++
    (o.layers.toList.flatMap (staticEvs? σ0 cfg) ++ (interEvs cfg o.inter.edges ++ interEvs cfg o.dynInter.edges))), ?_, ?_⟩
  · unfold mergeEvs
    rw [hflat]
    simp [dynEvs, hE]
  · intro n x ts hx hk hst
    have hrec := RV.node ho (.dyn l p) n
    rw [Graph.view_node_of_layerAt? hb, Spec.nodeRec_key hx hk] at hrec
    obtain ⟨i1, i2, i3, i4, i6, i5⟩ := RV.info ho (.dyn l p) (BaseLayer.info (.dyn d)) (by simp [Graph.view, hb])
    simp only [BaseLayer.info] at i2
    obtain ⟨-, hslot⟩ := BaseLayer.nd_dyn_lt hrec
    obtain ⟨hp, hm, -⟩ := hwτ.dyn n x l p hx hk
    have := dynNodeEvs_mem (l := l) (p := p) (i := 0) (t := ts) (a := x.attrs) hslot hst rfl
    rw [Nat.zero_add, i2, Prefix.makeId_index hm] at this
    exact List.mem_append_right _ (List.mem_cons_of_mem _ (List.mem_append_left _ this))

/-- the edges of a static layer come after its removals and nodes -/
theorem mergeEvs_staticSplit (ho : R o τ) (hwτ : SWF τ) {s t : NodeId} {a : EdgeAttrs} {l : LayerId}
    (he : τ.edges.find? (EdgeKey.of s t) = some ⟨s, t, a⟩) (hs : τ.key? s = some (.static l)) (ht : τ.key? t = some (.static l))
    (hl : σ0.layerIds.contains l = true) :
    ∃ A B, mergeEvs σ0 cfg o = A ++ .edge (.static l) s t (cfg.getMergedId s) (cfg.getMergedId t) a :: B ∧
      (∀ n x, τ.nodes.find? n = some x → x.key = .static l → MergeEv.node l n x.attrs ∈ A) ∧ ∀ ev ∈ B, ¬ ev.rmIn l := by
  obtain ⟨xs, hxs, hxk⟩ := Spec.exists_of_key? hs
  have hkey := (hwτ.node s xs hxs).1
  rw [hxk] at hkey
  obtain ⟨y, hy⟩ := Option.isSome_iff_exists.1 ((ho.static_layer l).trans hkey)
  have hb : o.layerAt? (.static l) = some (.static y) := by simp [Graph.layerAt?, hy]
  have hec : o.view.ec (.within (.static l)) = y.edges := by simp [Graph.view, Graph.ecAt?, hb, BaseLayer.ec]
  have hrec := RV.edge_some ho hs ht he
  rw [place, if_pos rfl, hec] at hrec
  have hmem : MergeEv.edge (.static l) s t (cfg.getMergedId s) (cfg.getMergedId t) a ∈ edgeEvs (.static l) cfg.getMergedId y.edges.edges :=
    edgeEvs_mem.2 ⟨_, _, a, hrec, rfl, rfl⟩
  obtain ⟨E1, E2, hE⟩ := List.append_of_mem hmem
  obtain ⟨X, Y, hXY, hflat⟩ := mem_split_flatMap (f := staticEvs? σ0 cfg) (OMap.mem_toList.2 hy)
  refine ⟨o.dynEntries.flatMap dynEvs ++ (X.flatMap (staticEvs? σ0 cfg) ++ ((y.getRemovedNodes false).2.map (.rmNode l) ++
    ((y.edges.getRemoved false).2.map (fun k => .rmEdge l k.k1 k.k2) ++ (y.nodes.toList.filterMap (fun x => x.2.attrs.map (.node l x.1)) ++ E1)))),
    E2 ++ (Y.flatMap (staticEvs? σ0 cfg) ++ (interEvs cfg o.inter.edges ++ interEvs cfg o.dynInter.edges)), ?_, ?_, ?_⟩
  · unfold mergeEvs
    rw [hflat]
    simp [staticEvs?, staticEvs, hE, show l ∈ σ0.layerIds from List.contains_iff_mem.1 hl]
  · intro n x hx hk
    have hrec := RV.node ho (.static l) n
    rw [Graph.view_node_of_layerAt? hb, Spec.nodeRec_key hx hk] at hrec
    refine List.mem_append_right _ (List.mem_append_right _ (List.mem_append_right _ (List.mem_append_right _ (List.mem_append_left _ ?_))))
    exact List.mem_filterMap.2 ⟨(n, τ.mkNode n x), OMap.mem_toList.2 hrec, rfl⟩
  · intro ev hev hin
    have hedge : ∀ ev ∈ edgeEvs (.static l) cfg.getMergedId y.edges.edges, ¬ ev.rmIn l := by
      intro ev hev
      obtain ⟨_, _, _, _, _, rfl⟩ := edgeEvs_mem.1 hev
      exact id
    rcases List.mem_append.1 hev with h | h
    · exact hedge ev (by rw [hE]; exact List.mem_append_right _ (List.mem_cons_of_mem _ h)) hin
    · rcases List.mem_append.1 h with h | h
      · obtain ⟨⟨l', x'⟩, h1, h2⟩ := List.mem_flatMap.1 h
        have hnd := o.layers.keys_nodup
        unfold OMap.keys at hnd
        rw [hXY, List.map_append, List.nodup_append, List.map_cons, List.nodup_cons] at hnd
        have hne : l' ≠ l := by
          rintro rfl
          exact hnd.2.1.1 (List.mem_map.2 ⟨_, h1, rfl⟩)
        unfold staticEvs? at h2
        split at h2
        · unfold staticEvs at h2
          simp only [List.mem_append, List.mem_map, List.mem_filterMap, Option.map_eq_some_iff] at h2
          rcases h2 with ⟨_, _, rfl⟩ | ⟨_, _, rfl⟩ | ⟨_, _, _, _, rfl⟩ | h2
          · exact hne hin
          · exact hne hin
          · exact hin
          · obtain ⟨_, _, _, _, _, rfl⟩ := edgeEvs_mem.1 h2
            exact hin
        · cases h2
      · rcases List.mem_append.1 h with h | h
        all_goals
          obtain ⟨_, _, _, _, _, rfl⟩ := interEvs_mem.1 h
          exact hin

/-! ## Edges inside layers -/

/-- Every edge of a dynamic layer of the other graph is there. -/
theorem merged_dynEdge (ho : R o τ) (hwτ : SWF τ) (hd : Did P g σ0 (mergeEvs σ0 cfg o) g') (hm : MInv P σ0 τ g σ0)
    (hfrom : ∀ ev ∈ mergeEvs σ0 cfg o, ev.From τ) (hrm : RmOk σ0 τ (mergeEvs σ0 cfg o))
    (hh : ∀ n k k', σ0.key? n = some k → τ.key? n = some k' → k = k')
    {s t : NodeId} {a : EdgeAttrs} {l : LayerId} {p : Prefix} (he : τ.edges.find? (EdgeKey.of s t) = some ⟨s, t, a⟩)
    (hs : τ.key? s = some (.dyn l p)) (ht : τ.key? t = some (.dyn l p)) : (σ0.merged P (mergeEvs σ0 cfg o)).hasEdge s t = true := by
  obtain ⟨A, B, hAB, hA⟩ := mergeEvs_dynSplit (σ0 := σ0) (cfg := cfg) ho hwτ he hs ht
  rw [hAB] at hd hfrom hrm ⊢
  have hne : s ≠ t := (hwτ.edge _ _ he).2.1
  obtain ⟨g1, d1, -⟩ := hd.split
  have hfrom1 : ∀ ev ∈ A, ev.From τ := fun ev hev => hfrom ev (List.mem_append_left _ hev)
  have hm1 := hm.run d1 hfrom1
  have key : ∀ n, τ.key? n = some (.dyn l p) → (σ0.merged P A).key? n = some (.dyn l p) := by
    intro n hn
    obtain ⟨x, hx, hk⟩ := Spec.exists_of_key? hn
    obtain ⟨ts, hst⟩ := Option.isSome_iff_exists.1 (hwτ.dyn n x l p hx hk).2.2
    have h1 := merged_dynNode d1.fits hfrom1 hx hk hst (hA n x ts hx hk hst)
    cases h2 : (σ0.merged P A).key? n with
    | some k' =>
      have := hm1.home hh h2 hn
      rw [this]
    | none =>
      exfalso
      have h3 : (σ0.merged P A).nodes.find? n = none := by simpa [Spec.key?] using h2
      rw [h3] at h1
      unfold ptFx at h1
      simp only [if_true] at h1
      split at h1
      · split at h1 <;> cases h1
      · cases h1
  rcases hd.lands hm hfrom hrm (by intro l' e; cases e) hne (key s hs) (key t ht) with h | h <;> exact h

/-- Every edge of a static layer of the other graph is there, or its image under the id map is, unless the image has no place. -/
theorem merged_staticEdge (ho : R o τ) (hwτ : SWF τ) (hd : Did P g σ0 (mergeEvs σ0 cfg o) g') (hm : MInv P σ0 τ g σ0)
    (hfrom : ∀ ev ∈ mergeEvs σ0 cfg o, ev.From τ) (hrm : RmOk σ0 τ (mergeEvs σ0 cfg o))
    (hh : ∀ n k k', σ0.key? n = some k → τ.key? n = some k' → k = k')
    {s t : NodeId} {a : EdgeAttrs} {l : LayerId} (he : τ.edges.find? (EdgeKey.of s t) = some ⟨s, t, a⟩)
    (hs : τ.key? s = some (.static l)) (ht : τ.key? t = some (.static l)) (hl : σ0.layerIds.contains l = true)
    (hne : cfg.getMergedId s ≠ cfg.getMergedId t)
    (hs' : (σ0.merged P (mergeEvs σ0 cfg o)).key? (cfg.getMergedId s) = some (.static l))
    (ht' : (σ0.merged P (mergeEvs σ0 cfg o)).key? (cfg.getMergedId t) = some (.static l)) :
    (σ0.merged P (mergeEvs σ0 cfg o)).hasEdge s t = true ∨ (σ0.merged P (mergeEvs σ0 cfg o)).hasEdge (cfg.getMergedId s) (cfg.getMergedId t) = true := by
  obtain ⟨A, B, hAB, hA, hB⟩ := mergeEvs_staticSplit (σ0 := σ0) (cfg := cfg) ho hwτ he hs ht hl
  rw [hAB] at hd hfrom hrm hs' ht' ⊢
  obtain ⟨g1, d1, -⟩ := hd.split
  have hfrom1 : ∀ ev ∈ A, ev.From τ := fun ev hev => hfrom ev (List.mem_append_left _ hev)
  have hm' := hm.run hd hfrom
  have key : ∀ n, (σ0.merged P (A ++ .edge (.static l) s t (cfg.getMergedId s) (cfg.getMergedId t) a :: B)).key? n = some (.static l) →
      (σ0.merged P A).key? n = some (.static l) := by
    intro n hn
    cases hx : τ.nodes.find? n with
    | some x =>
      have hk : x.key = .static l := (hm'.home hh hn (Spec.key?_eq hx)).symm
      rw [Spec.key?, merged_static d1.fits hfrom1 hx hk (hA n x hx hk)]
      rw [Spec.key?, merged_static hd.fits hfrom hx hk (List.mem_append_left _ (hA n x hx hk))] at hn
      exact hn
    | none =>
      have hno : ∀ ev ∈ A ++ .edge (.static l) s t (cfg.getMergedId s) (cfg.getMergedId t) a :: B, ev.node? ≠ some n := by
        intro ev hev hnode
        obtain ⟨l', rfl⟩ := From_none (hfrom ev hev) hnode hx
        have := merged_gone hd.fits hfrom hx hev
        rw [Spec.key?, this] at hn
        cases hn
      rw [Spec.key?, merged_kept d1.fits (fun ev hev => hno ev (List.mem_append_left _ hev))]
      rw [Spec.key?, merged_kept hd.fits hno] at hn
      exact hn
  exact hd.lands hm hfrom hrm (by intro l' e; cases e; exact hB) hne (key _ hs') (key _ ht')

/-! ## Edges between layers -/

/-- Without the parent rule, every edge between layers whose images exist is there. -/
theorem merged_interEdge (hd : Did P g σ0 (mergeEvs σ0 cfg o) g') (hp : P.cfg.enforceParent = false) {s t : NodeId} {a : EdgeAttrs}
    (he : MergeEv.inter s t a ∈ mergeEvs σ0 cfg o) (hne : s ≠ t)
    (hs : (σ0.merged P (mergeEvs σ0 cfg o)).nodes.contains s = true) (ht : (σ0.merged P (mergeEvs σ0 cfg o)).nodes.contains t = true) :
    (σ0.merged P (mergeEvs σ0 cfg o)).hasEdge s t = true := by
  obtain ⟨M, I, hMI, hM, hI⟩ := mergeEvs_phases σ0 cfg o
  generalize mergeEvs σ0 cfg o = evs at *
  subst hMI
  have he' : MergeEv.inter s t a ∈ I := by
    rcases List.mem_append.1 he with h | h
    · exact (hM _ h s t a rfl).elim
    · exact h
  obtain ⟨A, B, rfl⟩ := List.append_of_mem he'
  obtain ⟨g1, d1, d2⟩ := hd.split
  obtain ⟨g2, d3, d4⟩ := d2.split
  obtain ⟨g3, dd, hf, d5⟩ := d4.split_cons
  have hno : ∀ ev ∈ MergeEv.inter s t a :: B, ev.node? = none := by
    intro ev hev
    obtain ⟨s, t, a, rfl⟩ := hI ev (List.mem_append_right _ hev)
    rfl
  have hkeys := merged_key d4.fits hno
  rw [← List.append_assoc, Spec.merged_append] at hs ht ⊢
  rw [Spec.merged_append] at hs ht ⊢
  generalize (σ0.merged P M).merged P A = σ at *
  rw [OMap.contains_eq_true] at hs ht
  rw [hkeys] at hs ht
  rw [← OMap.contains_eq_true] at hs ht
  rw [Spec.merged_cons]
  have h1 : (σ.after (plan P σ (.inter s t a))).hasEdge s t = true := by
    rw [plan_inter, if_neg hne, hp]
    simp only [Bool.false_eq_true, if_false, Spec.after_cons, Spec.after_nil, Spec.step, Spec.ans, Spec.insertEdge]
    rw [if_neg hne, hs, ht]
    simp only [Bool.not_true, Bool.or_self, Bool.false_eq_true, if_false]
    split
    · assumption
    · simp [Spec.addEdge, Spec.hasEdge, OMap.contains_eq_true]
  obtain ⟨e, he⟩ := OMap.contains_eq_true.1 h1
  refine OMap.contains_eq_true.2 ⟨e, ?_⟩
  have := d5.induct (fun _ σ => σ.edges.find? (EdgeKey.of s t) = some e) he ?_
  · exact this
  · intro g σ ev g' hev hq hdo hf
    refine plan_edges_keep ev hf hq ?_
    obtain ⟨s, t, a, rfl⟩ := hI ev (List.mem_append_right _ (List.mem_cons_of_mem _ hev))
    rintro ⟨h, -⟩
    rw [hp] at h; cases h

/-- the lower end of an edge between layers -/
def Spec.lower (σ : Spec) (s t : NodeId) : NodeId :=
  match σ.key? s, σ.key? t with
  | some ks, some kt => if kt.layer < ks.layer then t else s
  | _, _ => s

theorem Spec.lower_of {σ : Spec} {s t : NodeId} {ks kt : LayerKey} (hs : σ.key? s = some ks) (ht : σ.key? t = some kt) :
    σ.lower s t = if kt.layer < ks.layer then t else s := by
  unfold Spec.lower
  rw [hs, ht]

theorem Spec.lower_congr {σ σ' : Spec} (h : ∀ n, σ'.key? n = σ.key? n) (s t : NodeId) : σ'.lower s t = σ.lower s t := by
  unfold Spec.lower
  rw [h, h]

/-- With the parent rule: for every edge between layers whose images exist, one of those offered for the same lower end is there. -/
theorem merged_parentEdge (hd : Did P g σ0 (mergeEvs σ0 cfg o) g') (hp : P.cfg.enforceParent = true) {s t : NodeId} {a : EdgeAttrs}
    (he : MergeEv.inter s t a ∈ mergeEvs σ0 cfg o) (hne : s ≠ t) {ks kt : LayerKey}
    (hs : (σ0.merged P (mergeEvs σ0 cfg o)).key? s = some ks) (ht : (σ0.merged P (mergeEvs σ0 cfg o)).key? t = some kt) :
    ∃ s' t' a', MergeEv.inter s' t' a' ∈ mergeEvs σ0 cfg o ∧
      (σ0.merged P (mergeEvs σ0 cfg o)).lower s' t' = (σ0.merged P (mergeEvs σ0 cfg o)).lower s t ∧
      (σ0.merged P (mergeEvs σ0 cfg o)).hasEdge s' t' = true := by
  obtain ⟨M, I, hMI, hM, hI⟩ := mergeEvs_phases σ0 cfg o
  generalize mergeEvs σ0 cfg o = evs at *
  subst hMI
  have he' : MergeEv.inter s t a ∈ I := by
    rcases List.mem_append.1 he with h | h
    · exact (hM _ h s t a rfl).elim
    · exact h
  obtain ⟨A, B, rfl⟩ := List.append_of_mem he'
  obtain ⟨g1, d1, d2⟩ := hd.split
  obtain ⟨g2, d3, d4⟩ := d2.split
  obtain ⟨g3, dd, hf, d5⟩ := d4.split_cons
  have hno : ∀ ev ∈ MergeEv.inter s t a :: B, ev.node? = none := by
    intro ev hev
    obtain ⟨s, t, a, rfl⟩ := hI ev (List.mem_append_right _ hev)
    rfl
  have hkeys := merged_key d4.fits hno
  rw [← List.append_assoc, Spec.merged_append] at hs ht ⊢
  rw [Spec.merged_append] at hs ht ⊢
  generalize (σ0.merged P M).merged P A = σ at *
  rw [Spec.key?, hkeys] at hs ht
  have hk' : ∀ n, (σ.merged P (.inter s t a :: B)).key? n = σ.key? n := fun n => by rw [Spec.key?, hkeys]; rfl
  simp only [Spec.lower_congr hk']
  rw [Spec.merged_cons]
  -- what a step with the parent rule adds
  have hadd : ∀ (σ1 : Spec) (s t : NodeId) (a : EdgeAttrs) (ks kt : LayerKey), σ1.key? s = some ks → σ1.key? t = some kt → s ≠ t →
      (σ1.after (plan P σ1 (.inter s t a))).hasEdge s t = true := by
    intro σ1 s t a ks kt h1 h2 h3
    rw [plan_inter, if_neg h3, hp]
    simp only [if_true, Spec.after_cons, Spec.after_nil, Spec.step, Spec.ans, Spec.insertParentEdge, h1, h2]
    split
    · assumption
    · simp [Spec.addEdge, Spec.hasEdge, OMap.contains_eq_true]
  have := d5.induct (fun _ σ1 => (∀ n, σ1.key? n = σ.key? n) ∧ ∃ s' t' a', MergeEv.inter s' t' a' ∈ M ++ (A ++ .inter s t a :: B) ∧
    σ.lower s' t' = σ.lower s t ∧ σ1.hasEdge s' t' = true ∧ (σ.key? s').isSome = true ∧ (σ.key? t').isSome = true ∧ s' ≠ t') ⟨?_, s, t, a, he, rfl, hadd σ s t a ks kt hs ht hne, ?_, ?_, hne⟩ ?_
  · obtain ⟨-, s', t', a', h1, h2, h3, -⟩ := this
    exact ⟨s', t', a', by simpa using h1, h2, h3⟩
  · intro n
    rw [Spec.key?, plan_nodes _ hf]; rfl
  · rw [show σ.key? s = _ from hs]; rfl
  · rw [show σ.key? t = _ from ht]; rfl
  · rintro g4 σ1 ev g5 hev ⟨hk1, s', t', a', h1, h2, h3, h4, h5, h6⟩ hdo hf1
    obtain ⟨u, v, w, rfl⟩ := hI ev (List.mem_append_right _ (List.mem_cons_of_mem _ hev))
    have hk2 : ∀ n, (σ1.after (plan P σ1 (.inter u v w))).key? n = σ.key? n := by
      intro n
      rw [← hk1, Spec.key?, plan_nodes _ hf1]; rfl
    refine ⟨hk2, ?_⟩
    obtain ⟨e, he3⟩ := OMap.contains_eq_true.1 h3
    by_cases hkill : (MergeEv.inter u v w).kills P σ1 (EdgeKey.of s' t')
    · obtain ⟨-, -, huv, ku, kv, k4, k5, k6⟩ := hkill
      have hu := k4
      have hv := k5
      rw [hk1] at hu hv
      refine ⟨u, v, w, List.mem_append_right _ (List.mem_append_right _ (List.mem_cons_of_mem _ hev)), ?_, hadd σ1 u v w ku kv k4 k5 huv, by rw [hu]; rfl, by rw [hv]; rfl, huv⟩
      rw [← h2, Spec.lower_of hu hv]
      obtain ⟨ks', hks'⟩ := Option.isSome_iff_exists.1 h4
      obtain ⟨kt', hkt'⟩ := Option.isSome_iff_exists.1 h5
      rw [Spec.lower_of hks' hkt']
      generalize (if kv.layer < ku.layer then v else u) = c at *
      unfold Spec.isParentEdge at k6
      rw [Bool.and_eq_true] at k6
      obtain ⟨k7, k8⟩ := k6
      rcases EdgeKey.ends rfl k7 with rfl | rfl
      · rw [EdgeKey.other_of_left, hk1, hk1, hks', hkt'] at k8
        have k8 : ks'.layer < kt'.layer := by simpa using k8
        rw [if_neg (by
          rw [UInt64.lt_iff_toNat_lt] at k8 ⊢
          omega)]
      · rw [EdgeKey.of_comm, EdgeKey.other_of_left, hk1, hk1, hks', hkt'] at k8
        have k8 : kt'.layer < ks'.layer := by simpa using k8
        rw [if_pos k8]
    · refine ⟨s', t', a', h1, h2, ?_, h4, h5, h6⟩
      exact OMap.contains_eq_true.2 ⟨e, plan_edges_keep _ hf1 he3 hkill⟩

end
end Verif
