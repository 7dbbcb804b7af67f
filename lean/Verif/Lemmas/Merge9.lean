import Verif.Lemmas.Merge8
/-! # The loop of `mergeGraph` over static layers -/

namespace Verif

/-- The iterations for one static layer of the other graph. -/
def staticEvs (cfg : MergeConfig) (e : LayerId × Layer) : List MergeEv :=
  (e.2.getRemovedNodes false).2.map (.rmNode e.1) ++ ((e.2.edges.getRemoved false).2.map (fun k => .rmEdge e.1 k.k1 k.k2) ++
    (e.2.nodes.toList.filterMap (fun x => x.2.attrs.map (.node e.1 x.1)) ++ edgeEvs (.static e.1) cfg.getMergedId e.2.edges.edges))

/-- A layer whose removals have been read. -/
def Layer.reported (clear : Bool) (x : Layer) : Layer :=
  { (x.getRemovedNodes clear).1 with edges := (x.edges.getRemoved clear).1 }

theorem Layer.reported_false (x : Layer) : x.reported false = x := by
  cases x; rfl

/-- Nodes the other graph reports as removed can be removed. -/
def Removable (σ0 τ : Spec) (o : Graph) : Prop := ∀ l x n, σ0.layerIds.contains l = true → o.layers.find? l = some x →
  n ∈ (x.getRemovedNodes false).2 → τ.key? n = none ∧ (σ0.key? n = none ∨ σ0.key? n = some (.static l)) ∧ σ0.crossFree n = true

section
variable {P : MergePar} {g g' : Graph} {σ σ0 τ : Spec}

theorem MInv.rmNodes {l : LayerId} (hw0 : SWF σ0) (ns : List NodeId)
    (hr : ∀ n ∈ ns, τ.key? n = none ∧ (σ0.key? n = none ∨ σ0.key? n = some (.static l)) ∧ σ0.crossFree n = true)
    (h : MInv P σ0 τ g σ) (hc : MCross σ0 σ) :
    ∃ g', foldRes Graph.mergeRemoved g ns = .ok g' ∧ Did P g σ (ns.map (.rmNode l)) g' ∧
      MInv P σ0 τ g' (σ.merged P (ns.map (.rmNode l))) ∧ MCross σ0 (σ.merged P (ns.map (.rmNode l))) := by
  have := Did.fold (P := P) (f := Graph.mergeRemoved) (emb := fun g : Graph => g) (ev := fun n => some (.rmNode l n)) (σ := σ) (s := g)
    (fun g σ => MInv P σ0 τ g σ ∧ MCross σ0 σ) (fun g σ h => ⟨h.1.r, h.1.w⟩) ns ?_ ⟨h, hc⟩
  · rw [show (fun n => some (MergeEv.rmNode l n)) = some ∘ MergeEv.rmNode l from rfl, List.filterMap_eq_map] at this
    exact this
  · rintro g σ n hn ⟨hm, hc⟩
    obtain ⟨r1, r2, r3⟩ := hr n hn
    have hcf := hm.crossFree hc r3 hw0
    obtain ⟨g', e, -⟩ := hm.r.removeNode hm.w (hm.w.noCross hcf)
    have hfit : (MergeEv.rmNode l n).Fits σ := by
      cases hk : σ.key? n with
      | none => exact .inl hk
      | some k =>
        rcases hm.keys n k hk with h1 | ⟨-, h1⟩
        · rw [h1] at r2
          simp only [reduceCtorEq, Option.some.injEq, false_or] at r2
          exact .inr (by rw [hk, r2])
        · rw [r1] at h1; cases h1
    have hdo : Does g σ (plan P σ (.rmNode l n)) g' := .one hm.r hm.w hcf (ans_ok e)
    refine ⟨g', _, ?_, rfl, hdo, hfit, hm.step hdo hfit r1, hc.step hdo.w hdo.rep.2 hfit nofun⟩
    simp [Graph.mergeRemoved, e]

theorem MInv.rmEdges {l : LayerId} {x : Layer} {lk : OMap NodeId LayerKey} (ks : List EdgeKey)
    (h : MInv P σ0 τ (g.withLayer l (x, lk)) σ) :
    ∃ y, foldRes Graph.mergeRemovedEdge x ks = .ok y ∧
      Did P (g.withLayer l (x, lk)) σ (ks.map (fun k => .rmEdge l k.k1 k.k2)) (g.withLayer l (y, lk)) ∧
      MInv P σ0 τ (g.withLayer l (y, lk)) (σ.merged P (ks.map (fun k => .rmEdge l k.k1 k.k2))) := by
  have := Did.fold (P := P) (f := Graph.mergeRemovedEdge) (emb := fun x => g.withLayer l (x, lk)) (ev := fun k => some (.rmEdge l k.k1 k.k2))
    (σ := σ) (s := x) (fun x σ => MInv P σ0 τ (g.withLayer l (x, lk)) σ) (fun g σ h => ⟨h.r, h.w⟩) ks ?_ h
  · rw [show (fun k : EdgeKey => some (MergeEv.rmEdge l k.k1 k.k2)) = some ∘ (fun k => MergeEv.rmEdge l k.k1 k.k2) from rfl,
      List.filterMap_eq_map] at this
    exact this
  · intro x σ k _ hm
    obtain ⟨y, e, hdo⟩ := hm.r.mergeRemovedEdge (P := P) hm.w (Graph.withLayer_find g l (x, lk)) k
    rw [Graph.withLayer_set] at hdo
    exact ⟨y, _, e, rfl, hdo, trivial, hm.step hdo trivial trivial⟩

theorem MInv.nodes {l : LayerId} {st : Layer × OMap NodeId LayerKey} (hwτ : SWF τ) (hl : σ0.layerIds.contains l = true)
    (hh : ∀ n k k', σ0.key? n = some k → τ.key? n = some k' → k = k')
    (ns : OMap NodeId Node) (hns : ∀ n y, ns.find? n = some y → ∃ i, τ.nodes.find? n = some i ∧ i.key = .static l ∧ y = τ.mkNode n i)
    (h : MInv P σ0 τ (g.withLayer l st) σ) :
    ∃ st', foldRes (Layer.mergeNodeStep P.cfg) st ns.toList = .ok st' ∧
      Did P (g.withLayer l st) σ (ns.toList.filterMap (fun x => x.2.attrs.map (.node l x.1))) (g.withLayer l st') ∧
      MInv P σ0 τ (g.withLayer l st') (σ.merged P (ns.toList.filterMap (fun x => x.2.attrs.map (.node l x.1)))) := by
  refine Did.fold (P := P) (f := Layer.mergeNodeStep P.cfg) (emb := fun st => g.withLayer l st) (σ := σ) (s := st)
    (fun st σ => MInv P σ0 τ (g.withLayer l st) σ) (fun g σ h => ⟨h.r, h.w⟩) ns.toList ?_ h
  rintro st σ ⟨n, y⟩ he hm
  obtain ⟨i, hi, hik, rfl⟩ := hns n y (OMap.mem_toList.1 he)
  have hlu : l ≠ UNKNOWN_LAYER := by
    have := (hwτ.node n i hi).2
    rw [hik] at this
    simpa [LayerKey.valid, LayerKey.layer] using this
  have hkey : σ.key? n = none ∨ σ.key? n = some (.static l) := by
    cases hk : σ.key? n with
    | none => exact .inl rfl
    | some k =>
      have := hm.home hh hk (Spec.key?_eq hi)
      rw [hik] at this
      exact .inr (by rw [this])
  obtain ⟨st', e, hdo⟩ := hm.r.mergeNode (P := P) hm.w hlu (y := τ.mkNode n i) (a := i.attrs) rfl rfl hkey (hm.merged l n)
  have hfit : (MergeEv.node l n i.attrs).Fits σ := by
    show σ.layerIds.contains l = true
    rw [hm.ids]; exact hl
  exact ⟨st', _, e, rfl, hdo, hfit, hm.step hdo hfit ⟨i, hi, hik, rfl⟩⟩

theorem MInv.edges {l : LayerId} {x : Layer} {lk : OMap NodeId LayerKey} (es : OMap EdgeKey Edge)
    (hinfo : ∀ k e, es.find? k = some e → e.info.isSome = true) (h : MInv P σ0 τ (g.withLayer l (x, lk)) σ) :
    ∃ y, foldRes (Layer.mergeEdgeStep P.cfg) x es.toList = .ok y ∧
      Did P (g.withLayer l (x, lk)) σ (edgeEvs (.static l) P.cfg.getMergedId es) (g.withLayer l (y, lk)) ∧
      MInv P σ0 τ (g.withLayer l (y, lk)) (σ.merged P (edgeEvs (.static l) P.cfg.getMergedId es)) := by
  refine Did.fold (emb := fun x => g.withLayer l (x, lk)) (fun x σ => MInv P σ0 τ (g.withLayer l (x, lk)) σ) (fun s σ h => ⟨h.r, h.w⟩) es.toList ?_ h
  rintro x σ ⟨k, e⟩ he hI
  obtain ⟨a, ha⟩ := Option.isSome_iff_exists.1 (hinfo k e (OMap.mem_toList.1 he))
  have hb := Graph.withLayer_at g l (x, lk)
  obtain ⟨b', e1, hfit, hdo⟩ := hI.r.mergeEdge (P := P) hI.w hb e.source e.target (P.cfg.getMergedId e.source) (P.cfg.getMergedId e.target) a
  cases b' with
  | dyn x => cases hfit
  | static y =>
    rw [Graph.withLayer_set] at hdo
    refine ⟨y, _, ?_, by rw [ha]; rfl, hdo, trivial, hI.step hdo trivial trivial⟩
    unfold BaseLayer.mergeEdge at e1
    unfold Layer.mergeEdgeStep
    simp only [show (BaseLayer.static x).hasEdge e.source e.target = x.hasEdge e.source e.target from rfl] at e1
    split at e1
    · rename_i hh
      rw [if_pos hh]; cases e1; rfl
    · rename_i hh
      rw [if_neg hh]
      dsimp only
      split at e1
      · rename_i hst
        rw [if_pos hst]
        cases e1
        rfl
      · rename_i hst
        rw [if_neg hst, ha]
        simp only [BaseLayer.insertEdge] at e1
        obtain ⟨r, hr, hr'⟩ := bind_eq_ok e1
        obtain ⟨r2, hr2, hr2'⟩ := bind_eq_ok hr
        simp only [Res.ok.injEq] at hr2' hr'
        subst hr2'
        simp only [BaseLayer.static.injEq] at hr'
        simp [hr2, hr']

/-- One static layer of the other graph. -/
theorem MInv.mergeStatic {o : Graph} (ho : R o τ) (hwτ : SWF τ) (hw0 : SWF σ0)
    (hh : ∀ n k k', σ0.key? n = some k → τ.key? n = some k' → k = k') (hrm : Removable σ0 τ o)
    {l : LayerId} {x : Layer} (hx : o.layers.find? l = some x) (hl : σ0.layerIds.contains l = true)
    (h : MInv P σ0 τ g σ) (hc : MCross σ0 σ) (ol : OMap LayerId Layer) :
    ∃ g', Graph.mergeStatic P.cfg (g, ol) (l, x) = .ok (g', ol.insert l (x.reported P.cfg.clearRemoved)) ∧ Did P g σ (staticEvs P.cfg (l, x)) g' ∧
      MInv P σ0 τ g' (σ.merged P (staticEvs P.cfg (l, x))) ∧ MCross σ0 (σ.merged P (staticEvs P.cfg (l, x))) := by
  have hob : o.layerAt? (.static l) = some (.static x) := by simp [Graph.layerAt?, hx]
  obtain ⟨g1, e1, d1, m1, c1⟩ := h.rmNodes (l := l) hw0 (x.getRemovedNodes false).2 (fun n hn => hrm l x n hl hx hn) hc
  obtain ⟨y1, hy1⟩ : ∃ y, g1.layers.find? l = some y := by
    have := m1.r.static_layer l
    rw [m1.ids, hl] at this
    exact Option.isSome_iff_exists.1 this
  have hself := Graph.withLayer_self hy1
  rw [← hself] at m1
  obtain ⟨y2, e2, d2, m2⟩ := m1.rmEdges (x.edges.getRemoved false).2
  obtain ⟨⟨y3, lk3⟩, e3, d3, m3⟩ := m2.nodes hwτ hl hh x.nodes (by
    intro n y hy
    exact ho.static_slot hx hy)
  have hec : o.view.ec (.within (.static l)) = x.edges := by
    simp [Graph.view, Graph.ecAt?, hob, BaseLayer.ec]
  obtain ⟨y4, e4, d4, m4⟩ := m3.edges x.edges.edges (by
    intro k e he
    rw [← hec] at he
    obtain ⟨-, -, h3, -⟩ := ho.edge_rec hwτ he
    rw [h3]; rfl)
  have did : Did P g σ (staticEvs P.cfg (l, x)) (g1.withLayer l (y4, lk3)) := by
    refine d1.trans ?_
    rw [hself] at d2
    refine d2.trans ?_
    refine d3.trans ?_
    simpa [Spec.merged_append] using d4
  refine ⟨g1.withLayer l (y4, lk3), ?_, did, ?_, ?_⟩
  · have hg : g.hasLayer l = true := by
      have := h.r.static_layer l
      rw [h.ids, hl] at this
      exact this
    unfold Graph.mergeStatic
    simp only [hg, Bool.not_true, Bool.false_eq_true, if_false]
    have r2 : (x.getRemovedNodes P.cfg.clearRemoved).2 = (x.getRemovedNodes false).2 := rfl
    have r3 : ((x.getRemovedNodes P.cfg.clearRemoved).1.edges.getRemoved P.cfg.clearRemoved).2 = (x.edges.getRemoved false).2 := rfl
    rw [r2, e1]
    simp only [Res.bind_ok, hy1, Res.deref_some, r3, e2]
    have e5 : y2.mergeLayer { (x.getRemovedNodes P.cfg.clearRemoved).1 with
        edges := ((x.getRemovedNodes P.cfg.clearRemoved).1.edges.getRemoved P.cfg.clearRemoved).1 } P.cfg g1.lookup = .ok (y4, lk3) := by
      unfold Layer.mergeLayer
      have n1 : (x.getRemovedNodes P.cfg.clearRemoved).1.nodes = x.nodes := rfl
      have n2 : ((x.getRemovedNodes P.cfg.clearRemoved).1.edges.getRemoved P.cfg.clearRemoved).1.edges = x.edges.edges := rfl
      simp only [n1, n2, e3, Res.bind_ok, e4, Res.pure_eq]
    rw [e5]
    rfl
  · unfold staticEvs
    simp only [Spec.merged_append]
    exact m4
  · refine hc.run did ?_
    intro e he s t a
    unfold staticEvs at he
    simp only [List.mem_append, List.mem_map, List.mem_filterMap, Option.map_eq_some_iff] at he
    rcases he with ⟨_, _, rfl⟩ | ⟨_, _, rfl⟩ | ⟨_, _, _, _, rfl⟩ | he
    · exact nofun
    · exact nofun
    · exact nofun
    · obtain ⟨_, _, _, _, _, rfl⟩ := edgeEvs_mem.1 he
      exact nofun

theorem staticEvs_from {o : Graph} (ho : R o τ) (hrm : Removable σ0 τ o) {l : LayerId} {x : Layer} (hx : o.layers.find? l = some x)
    (hl : σ0.layerIds.contains l = true) {cfg : MergeConfig} {ev : MergeEv} (he : ev ∈ staticEvs cfg (l, x)) : ev.From τ := by
  unfold staticEvs at he
  simp only [List.mem_append, List.mem_map, List.mem_filterMap, Option.map_eq_some_iff] at he
  rcases he with ⟨n, hn, rfl⟩ | ⟨_, _, rfl⟩ | ⟨⟨n, y⟩, hy, a, ha, rfl⟩ | he
  · exact (hrm l x n hl hx hn).1
  · trivial
  · obtain ⟨i, hi, hik, hy'⟩ := ho.static_slot hx (OMap.mem_toList.1 hy)
    dsimp only at ha
    rw [hy'] at ha
    injection ha with ha
    exact ⟨i, hi, hik, ha⟩
  · obtain ⟨_, _, _, _, _, rfl⟩ := edgeEvs_mem.1 he
    trivial

/-- the iterations for the static layers the receiver has -/
def staticEvs? (σ0 : Spec) (cfg : MergeConfig) (e : LayerId × Layer) : List MergeEv :=
  if σ0.layerIds.contains e.1 then staticEvs cfg e else []

/-- The loop over the static layers of the other graph. -/
theorem MInv.staticPhase {o : Graph} (ho : R o τ) (hwτ : SWF τ) (hw0 : SWF σ0)
    (hh : ∀ n k k', σ0.key? n = some k → τ.key? n = some k' → k = k') (hrm : Removable σ0 τ o)
    (h : MInv P σ0 τ g σ) (hc : MCross σ0 σ) :
    ∃ g' ol, foldRes (Graph.mergeStatic P.cfg) (g, o.layers) o.layers.toList = .ok (g', ol) ∧
      Did P g σ (o.layers.toList.flatMap (staticEvs? σ0 P.cfg)) g' ∧
      MInv P σ0 τ g' (σ.merged P (o.layers.toList.flatMap (staticEvs? σ0 P.cfg))) ∧
      ∀ l, ol.find? l = if σ0.layerIds.contains l then (o.layers.find? l).map (Layer.reported P.cfg.clearRemoved) else o.layers.find? l := by
  have key := Did.foldList (P := P) (f := Graph.mergeStatic P.cfg) (emb := fun s : Graph × OMap LayerId Layer => s.1) (ev := staticEvs? σ0 P.cfg)
    (σ := σ) (s := (g, o.layers))
    (fun s σ xs => MInv P σ0 τ s.1 σ ∧ MCross σ0 σ ∧ (xs.map Prod.fst).Nodup ∧
      ∀ l, s.2.find? l = if l ∈ xs.map Prod.fst then o.layers.find? l else
        if σ0.layerIds.contains l then (o.layers.find? l).map (Layer.reported P.cfg.clearRemoved) else o.layers.find? l)
    (fun g σ xs h => ⟨h.1.r, h.1.w⟩) o.layers.toList ?_ ⟨h, hc, o.layers.keys_nodup, ?_⟩
  · obtain ⟨⟨g', ol⟩, h1, h2, h3, -, -, h5⟩ := key
    exact ⟨g', ol, h1, h2, h3, by simpa using h5⟩
  · rintro ⟨g, ol⟩ σ ⟨l, x⟩ ys hx ⟨hm, hc, hnd, hol⟩
    have hx' := OMap.mem_toList.1 hx
    rw [List.map_cons, List.nodup_cons] at hnd
    by_cases hl : σ0.layerIds.contains l = true
    · obtain ⟨g1, e1, did1, m1, c1⟩ := hm.mergeStatic ho hwτ hw0 hh hrm hx' hl hc ol
      have hev : staticEvs? σ0 P.cfg (l, x) = staticEvs P.cfg (l, x) := if_pos hl
      rw [hev]
      refine ⟨_, e1, did1, m1, c1, hnd.2, ?_⟩
      intro l'
      rw [OMap.find?_insert]
      by_cases e : l = l'
      · subst e
        rw [if_pos rfl, if_neg hnd.1, if_pos hl, hx']
        rfl
      · rw [if_neg e, hol l', List.map_cons]
        simp only [List.mem_cons, Ne.symm e, false_or]
    · have hev : staticEvs? σ0 P.cfg (l, x) = [] := if_neg hl
      have hg : g.hasLayer l = false := by
        have := hm.r.static_layer l
        rw [hm.ids] at this
        simp only [Bool.not_eq_true] at hl
        rw [hl] at this
        exact this
      rw [hev]
      refine ⟨(g, ol), ?_, .nil hm.r hm.w, hm, hc, hnd.2, ?_⟩
      · simp [Graph.mergeStatic, hg]
      · intro l'
        rw [hol l', List.map_cons]
        simp only [List.mem_cons]
        by_cases e : l' = l
        · subst e
          rw [if_neg hl]
          simp
        · simp only [e, false_or]
  · intro l
    split
    · rfl
    · rename_i hn
      have : o.layers.find? l = none := by
        cases hf : o.layers.find? l with
        | none => rfl
        | some x => exact absurd (List.mem_map.2 ⟨(l, x), OMap.mem_toList.2 hf, rfl⟩) hn
      simp [this]

/-- the iterations for the edges between layers -/
def interEvs (cfg : MergeConfig) (es : OMap EdgeKey Edge) : List MergeEv :=
  es.toList.filterMap (fun e => e.2.info.map (fun a => .inter (cfg.getMergedId e.2.source) (cfg.getMergedId e.2.target) a))

theorem interEvs_mem {cfg : MergeConfig} {es : OMap EdgeKey Edge} {ev : MergeEv} :
    ev ∈ interEvs cfg es ↔ ∃ q e a, es.find? q = some e ∧ e.info = some a ∧ ev = .inter (cfg.getMergedId e.source) (cfg.getMergedId e.target) a := by
  unfold interEvs
  rw [List.mem_filterMap]
  constructor
  · rintro ⟨⟨q, e⟩, h1, h2⟩
    obtain ⟨a, ha, rfl⟩ := Option.map_eq_some_iff.1 h2
    exact ⟨q, e, a, OMap.mem_toList.1 h1, ha, rfl⟩
  · rintro ⟨q, e, a, h1, h2, rfl⟩
    exact ⟨(q, e), OMap.mem_toList.2 h1, by rw [h2]; rfl⟩

/-- The loops over the edges between layers. -/
theorem MInv.interPhase {o : Graph} (ho : R o τ) (hwτ : SWF τ) (dyn : Bool)
    (hmap : P.cfg.enforceParent = true → ∀ n k k', τ.key? n = some k → (σ0.key? (P.cfg.getMergedId n) = some k' ∨ τ.key? (P.cfg.getMergedId n) = some k') → k' = k)
    (h : MInv P σ0 τ g σ) :
    ∃ g', foldRes (Graph.mergeInter P.cfg) g (o.view.ec (.across dyn)).edges.toList = .ok g' ∧
      Did P g σ (interEvs P.cfg (o.view.ec (.across dyn)).edges) g' ∧
      MInv P σ0 τ g' (σ.merged P (interEvs P.cfg (o.view.ec (.across dyn)).edges)) := by
  refine Did.fold (P := P) (f := Graph.mergeInter P.cfg) (emb := fun g : Graph => g) (σ := σ) (s := g)
    (fun g σ => MInv P σ0 τ g σ) (fun g σ h => ⟨h.r, h.w⟩) _ ?_ h
  rintro g σ ⟨q, e⟩ he hm
  obtain ⟨h1, h2, h3, h4⟩ := ho.edge_rec hwτ (OMap.mem_toList.1 he)
  obtain ⟨a, ha⟩ : ∃ a, e.info = some a := ⟨_, by rw [h3]; rfl⟩
  refine (fun (hcore : ∃ g', Graph.mergeInter P.cfg g (q, e) = .ok g' ∧ Does g σ (plan P σ (.inter (P.cfg.getMergedId e.source) (P.cfg.getMergedId e.target) a)) g') => ?_) ?_
  · obtain ⟨g', e1, hdo⟩ := hcore
    exact ⟨g', _, e1, by rw [ha]; rfl, hdo, trivial, hm.step hdo trivial trivial⟩
  · unfold Graph.mergeInter
    rw [plan_inter]
    dsimp only
    by_cases hst : P.cfg.getMergedId e.source = P.cfg.getMergedId e.target
    · rw [if_pos hst, if_pos hst]
      exact ⟨g, rfl, .nil hm.r hm.w⟩
    · rw [if_neg hst, if_neg hst, ha]
      simp only [Res.deref_some, Res.bind_ok]
      cases hp : P.cfg.enforceParent with
      | false =>
        obtain ⟨g', out, e1, -⟩ := hm.r.step hm.w (.insertEdge (P.cfg.getMergedId e.source) (P.cfg.getMergedId e.target) (some a)) rfl
        have e2 : Graph.ans (g.insertEdge (P.cfg.getMergedId e.source) (P.cfg.getMergedId e.target) (some a)) = .ok (g', out) := e1
        unfold Graph.ans at e2
        obtain ⟨r, hr, hr'⟩ := bind_eq_ok e2
        simp only [Res.pure_eq, Res.ok.injEq, Prod.mk.injEq] at hr'
        refine ⟨r.1, by simp [hr], ?_⟩
        refine .one hm.r hm.w rfl (out := out) ?_
        rw [hr'.1]; exact e1
      | true =>
        have hok : (Op.insertParentEdge (P.cfg.getMergedId e.source) (P.cfg.getMergedId e.target) (some a)).ok σ = true := by
          simp only [Op.ok, Bool.or_eq_true, decide_eq_true_eq]
          cases hks : σ.key? (P.cfg.getMergedId e.source) with
          | none => exact .inl (.inl rfl)
          | some ks =>
            refine .inl (.inr ?_)
            intro hkt
            have hq : τ.hasEdge e.source e.target = true := OMap.contains_eq_true.2 ⟨_, h1 ▸ h2⟩
            obtain ⟨-, hs, ht⟩ := hwτ.hasEdge_nodes hq
            obtain ⟨ka, hka⟩ := Spec.key_of_contains hs
            obtain ⟨kb, hkb⟩ := Spec.key_of_contains ht
            have e1 : ks = ka := by
              rcases hm.keys _ _ hks with h5 | ⟨-, h5⟩
              · exact hmap hp _ _ _ hka (.inl h5)
              · exact hmap hp _ _ _ hka (.inr h5)
            have e2 : ks = kb := by
              rcases hm.keys _ _ hkt.symm with h5 | ⟨-, h5⟩
              · exact hmap hp _ _ _ hkb (.inl h5)
              · exact hmap hp _ _ _ hkb (.inr h5)
            rw [h1, Spec.placeOf_of hka hkb, ← e1, ← e2] at h4
            simp [place] at h4
        obtain ⟨g', out, e1, -⟩ := hm.r.step hm.w (.insertParentEdge (P.cfg.getMergedId e.source) (P.cfg.getMergedId e.target) (some a)) hok
        have e2 : Graph.ans (g.insertParentEdge (P.cfg.getMergedId e.source) (P.cfg.getMergedId e.target) (some a)) = .ok (g', out) := e1
        unfold Graph.ans at e2
        obtain ⟨r, hr, hr'⟩ := bind_eq_ok e2
        simp only [Res.pure_eq, Res.ok.injEq, Prod.mk.injEq] at hr'
        refine ⟨r.1, by simp [hr], ?_⟩
        refine .one hm.r hm.w hok (out := out) ?_
        rw [hr'.1]; exact e1

end
end Verif
