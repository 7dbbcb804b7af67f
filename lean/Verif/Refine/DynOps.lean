import Verif.Refine.NodeOps
/-!
# Operations on dynamic layers
-/

namespace Verif

theorem ELog.of_ec {v v' : View} (h : v'.ec = v.ec) : ELog v v' := by
  intro c key; simp [View.hasE, h]

section
variable {g : Graph} {σ : Spec}

theorem Spec.hasKey_insert_dyn (σ : Spec) (l : LayerId) (p : Prefix) (d : DynInfo) (k : LayerKey) :
    Spec.hasKey { σ with dyn := σ.dyn.insert (l, p) d } k = (decide (k = .dyn l p) || σ.hasKey k) := by
  cases k with
  | static l' => simp [hasKey]
  | dyn l' p' =>
    simp only [hasKey, OMap.contains_insert, Prod.mk.injEq, LayerKey.dyn.injEq]
    congr 1
    simp only [decide_eq_decide]
    constructor <;> rintro ⟨rfl, rfl⟩ <;> exact ⟨rfl, rfl⟩

/-- Creating an empty dynamic layer. -/
theorem R.createDyn_new (h : R g σ) (hw : SWF σ) {l : LayerId} {p : Prefix} (hd : σ.dyn.contains (l, p) = false) (gone : NodeStatus) :
    Adv gone g.view (g.setDyn l p { id := l, pre := p }).view { σ with dyn := σ.dyn.insert (l, p) {} } := by
  have hb : g.layerAt? (.dyn l p) = none := by
    have := h.has (.dyn l p)
    simp only [Graph.view, Option.isSome_map, Spec.hasKey, hd] at this
    simpa using this
  have hv : (g.setDyn l p { id := l, pre := p }).view = g.view.setL (.dyn l p) (.dyn { id := l, pre := p }) :=
    Graph.view_setLayer (g := g) (k := .dyn l p) (b := .dyn { id := l, pre := p }) trivial
  rw [hv]
  have h1 : ∀ n, g.view.node (.dyn l p) n = none := by intro n; simp [Graph.view, hb]
  have h2 : ∀ n, g.view.st (.dyn l p) n = none := by intro n; simp [Graph.view, hb]
  have h3 : g.view.ec (.within (.dyn l p)) = {} := by simp [Graph.view, Graph.ecAt?, hb]
  have h4 : ∀ n, (BaseLayer.dyn { id := l, pre := p }).nd n = none := by intro n; simp [BaseLayer.nd]
  have h5 : ∀ n, (BaseLayer.dyn { id := l, pre := p }).nst n = none := by intro n; simp [BaseLayer.nst]
  have hnode : (g.view.setL (.dyn l p) (.dyn { id := l, pre := p })).node = g.view.node := by
    funext k n
    simp only [View.setL]
    by_cases e : LayerKey.dyn l p = k
    · subst e; simp [h1, h4]
    · simp [e]
  have hst : (g.view.setL (.dyn l p) (.dyn { id := l, pre := p })).st = g.view.st := by
    funext k n
    simp only [View.setL]
    by_cases e : LayerKey.dyn l p = k
    · subst e; simp [h2, h5]
    · simp [e]
  have hec : (g.view.setL (.dyn l p) (.dyn { id := l, pre := p })).ec = g.view.ec := by
    funext c
    simp only [View.setL]
    by_cases e : c = .within (.dyn l p)
    · subst e; simp [h3, BaseLayer.ec]
    · simp [e]
  have hnostamp : ∀ t, σ.hasStamp (.dyn l p) t = false := by
    intro t
    cases hh : σ.hasStamp (.dyn l p) t with
    | false => rfl
    | true =>
      obtain ⟨n, i, h1, h2, h3⟩ := Spec.hasStamp_iff.1 hh
      have := (hw.node n i h1).1
      rw [h2] at this
      simp only [Spec.hasKey, hd] at this; cases this
  refine ⟨⟨h.layerIds, h.mesh, h.lookup, ?_, ?_, ?_, ?_, ?_⟩, ?_, ?_⟩
  · intro k n; rw [hnode, h.node]; rfl
  · intro k n; rw [hnode, hst]; exact RV.live h k n
  · intro c; rw [hec]
    have hE := h.ec c
    exact ⟨hE.edges, hE.status, hE.stale⟩
  · intro k
    rw [Spec.hasKey_insert_dyn, ← h.has]
    simp only [View.setL]
    by_cases e : LayerKey.dyn l p = k
    · subst e; simp
    · simp [e, Ne.symm e]
  · intro k m hm
    simp only [View.setL] at hm
    by_cases e : LayerKey.dyn l p = k
    · subst e
      simp only [if_true, Option.some.injEq] at hm
      subst hm
      refine ⟨rfl, rfl, ?_, ?_, ?_, ?_⟩
      · simp [BaseLayer.info, Spec.dynInfo]
      · simp [BaseLayer.info, Spec.dynInfo]
      · intro i hi; simp [OMap.contains] at hi
      · intro t; exact (hnostamp t).symm
    · simp only [e, if_false] at hm
      have := h.info k m hm
      cases k with
      | static l' => exact this
      | dyn l' p' =>
        have hne : ¬((l, p) = (l', p')) := by
          intro e'; cases e'; exact e rfl
        obtain ⟨a1, a2, a3, a4, a6, a5⟩ := this
        refine ⟨a1, a2, ?_, ?_, a6, a5⟩
        · rw [a3]; simp [Spec.dynInfo, OMap.find?_insert, hne]
        · rw [a4]; simp [Spec.dynInfo, OMap.find?_insert, hne]
  · intro k n; rw [hnode, hst]; simp
  · intro c key; simp [View.hasE, hec]

theorem SWF.setDyn (hw : SWF σ) (l : LayerId) (p : Prefix) (d : DynInfo) : SWF { σ with dyn := σ.dyn.insert (l, p) d } where
  edge := hw.edge
  node n i h := by
    rw [Spec.hasKey_insert_dyn]
    exact ⟨by simp [(hw.node n i h).1], (hw.node n i h).2⟩
  dyn := hw.dyn
  stamps := hw.stamps
  marks := hw.marks

theorem R.dyn_layer (h : R g σ) (l : LayerId) (p : Prefix) : g.hasDynLayer l p = σ.dyn.contains (l, p) := by
  have := h.has (.dyn l p)
  simpa [Graph.view, Graph.layerAt?, Spec.hasKey, Graph.hasDynLayer] using this

theorem R.createDyn (h : R g σ) (hw : SWF σ) (l : LayerId) (p : Prefix) (gone : NodeStatus) :
    ∃ g', g.createDynamicLayer l p = (g', (σ.createDyn l p).2) ∧ Adv gone g.view g'.view (σ.createDyn l p).1 := by
  simp only [Graph.createDynamicLayer, Spec.createDyn, h.dyn_layer]
  cases hd : σ.dyn.contains (l, p) with
  | true => exact ⟨g, by simp, by simpa using Adv.refl gone h⟩
  | false => exact ⟨_, rfl, by simpa using h.createDyn_new hw hd gone⟩

/-- Storing a new node in a dynamic layer. -/
theorem R.addDyn (h : R g σ) (hw : SWF σ) {l : LayerId} {p : Prefix} {d d' : DynLayer} (hd : g.dynLayer? l p = some d)
    {n : NodeId} (hn : σ.key? n = none) (hm : p.isMatch n = true) (t : Stamp) (a : NodeAttrs)
    (hid : d'.id = d.id) (hpre : d'.pre = d.pre) (hedges : d'.edges = d.edges)
    (hnodes : ∀ j, j < 2 ^ 32 → (d'.nodes[j]?).join = if j = p.index n then some (bareNode n ⟨.dyn l p, some t, a⟩) else (d.nodes[j]?).join)
    (hlive : ∀ j, j < 2 ^ 32 → NodeStatus.live (d'.status.find? j) = ((d'.nodes[j]?).join).isSome)
    (htimes : ∀ t', d'.times.contains t' = (decide (t = t') || d.times.contains t'))
    (hsmall : ∀ i, d'.status.contains i = true → i < 2 ^ 32) :
    RV { g.setDyn l p d' with lookup := g.lookup.insert n (.dyn l p) : Graph }.view
      ({ σ with dyn := σ.dyn.insert (l, p) ⟨d'.next, d'.nodes.length⟩ }.addNode n ⟨.dyn l p, some t, a⟩) ∧
    (∀ k m, { g.setDyn l p d' with lookup := g.lookup.insert n (.dyn l p) : Graph }.view.node k m =
      if LayerKey.dyn l p = k ∧ n = m then some (bareNode n ⟨.dyn l p, some t, a⟩) else g.view.node k m) ∧
    (∀ k m, { g.setDyn l p d' with lookup := g.lookup.insert n (.dyn l p) : Graph }.view.st k m =
      if LayerKey.dyn l p = k then (if p.isMatch m then d'.status.find? (p.index m) else none) else g.view.st k m) ∧
    { g.setDyn l p d' with lookup := g.lookup.insert n (.dyn l p) : Graph }.view.ec = g.view.ec := by
  have hb : g.layerAt? (.dyn l p) = some (.dyn d) := by simp [Graph.layerAt?, hd]
  have hinf := h.info (.dyn l p) (BaseLayer.info (.dyn d)) (by simp [Graph.view, hb])
  obtain ⟨i1, i2, i3, i4, i6, i5⟩ := hinf
  simp only [BaseLayer.info] at i1 i2 i3 i4 i5 i6
  have hpre' : d'.pre = p := hpre.trans i2
  generalize hg : ({ g.setDyn l p d' with lookup := g.lookup.insert n (.dyn l p) } : Graph) = g'
  have hl : ∀ k, g'.layerAt? k = if .dyn l p = k then some (.dyn d') else g.layerAt? k := by
    intro k; subst hg
    exact Graph.layerAt?_setLayer' (g := g) (k := .dyn l p) (b := .dyn d') trivial k
  have hnode : ∀ k m, g'.view.node k m = if LayerKey.dyn l p = k ∧ n = m then
      some (bareNode n ⟨.dyn l p, some t, a⟩) else g.view.node k m := by
    intro k m
    simp only [Graph.view, hl]
    by_cases e : LayerKey.dyn l p = k
    · subst e
      simp only [if_true, true_and, Option.bind_some, BaseLayer.nd, hb, hpre', i2]
      by_cases em : p.isMatch m = true
      · simp only [em, if_true, hnodes _ (Prefix.index_lt p m)]
        by_cases e' : n = m
        · subst e'; simp
        · have : p.index m ≠ p.index n := fun e'' => e' (Prefix.eq_of_index hm em e''.symm)
          simp [e', this]
      · have : n ≠ m := by rintro rfl; exact em hm
        simp [em, this]
    · simp [e]
  have hst : ∀ k m, g'.view.st k m =
      if LayerKey.dyn l p = k then (if p.isMatch m then d'.status.find? (p.index m) else none) else g.view.st k m := by
    intro k m
    simp only [Graph.view, hl]
    by_cases e : LayerKey.dyn l p = k
    · subst e; simp [BaseLayer.nst, hpre']
    · simp [e]
  have hec : g'.view.ec = g.view.ec := by
    funext c
    cases c with
    | within k =>
      simp only [Graph.view, Graph.ecAt?, hl]
      by_cases e : LayerKey.dyn l p = k
      · subst e; simp [hb, BaseLayer.ec, hedges]
      · simp [e]
    | across d => subst hg; cases d <;> rfl
  refine ⟨?_, hnode, hst, hec⟩
  have hnone : σ.nodes.find? n = none := by simpa [Spec.key?] using hn
  refine RV.addNode h hw hn ⟨.dyn l p, some t, a⟩ (by subst hg; rfl) (by subst hg; rfl) ?_ hnode ?_ hec ?_ ?_
  · intro m; subst hg; simp only [Graph.view, OMap.find?_insert]
  · intro k m
    by_cases e : LayerKey.dyn l p = k
    · subst e
      have : (g'.view.node (.dyn l p) m) = if p.isMatch m then (d'.nodes[p.index m]?).join else none := by
        simp [Graph.view, hl, BaseLayer.nd, hpre']
      rw [hst, this]
      simp only [if_true]
      by_cases em : p.isMatch m = true
      · simp [em, hlive _ (Prefix.index_lt p m)]
      · simp [em, NodeStatus.live]
    · rw [hst, hnode]
      simp only [e, if_false, false_and]; exact RV.live h k m
  · intro k
    have : Spec.hasKey ({ σ with dyn := σ.dyn.insert (l, p) ⟨d'.next, d'.nodes.length⟩ }.addNode n ⟨.dyn l p, some t, a⟩) k =
      Spec.hasKey { σ with dyn := σ.dyn.insert (l, p) ⟨d'.next, d'.nodes.length⟩ } k := hasKey_congr rfl rfl k
    rw [this, Spec.hasKey_insert_dyn, ← h.has]
    simp only [Graph.view, hl]
    by_cases e : LayerKey.dyn l p = k
    · subst e; simp
    · simp [e, Ne.symm e]
  · intro k m hm'
    simp only [Graph.view, hl] at hm'
    have hstamp : ∀ k t', Spec.hasStamp ({ σ with dyn := σ.dyn.insert (l, p) ⟨d'.next, d'.nodes.length⟩ }.addNode n ⟨.dyn l p, some t, a⟩) k t' =
        (decide (LayerKey.dyn l p = k ∧ t = t') || σ.hasStamp k t') := by
      intro k t'
      rw [Bool.eq_iff_iff, Spec.hasStamp_iff]
      simp only [Bool.or_eq_true, decide_eq_true_eq, Spec.hasStamp_iff, Spec.addNode, OMap.find?_insert]
      constructor
      · rintro ⟨m', j, h1, h2, h3⟩
        split at h1
        · cases h1; cases h3; exact .inl ⟨h2, rfl⟩
        · exact .inr ⟨m', j, h1, h2, h3⟩
      · rintro (⟨h1, rfl⟩ | ⟨m', j, h1, h2, h3⟩)
        · exact ⟨n, _, if_pos rfl, h1, rfl⟩
        · refine ⟨m', j, ?_, h2, h3⟩
          rw [if_neg]; exact h1
          rintro rfl; rw [hnone] at h1; cases h1
    by_cases e : LayerKey.dyn l p = k
    · subst e
      simp only [if_true, Option.map_some, Option.some.injEq] at hm'
      subst hm'
      refine ⟨hid.trans i1, hpre', ?_, ?_, hsmall, ?_⟩
      · simp [BaseLayer.info, Spec.dynInfo, Spec.addNode]
      · simp [BaseLayer.info, Spec.dynInfo, Spec.addNode]
      · intro t'
        rw [hstamp]
        simp only [BaseLayer.info, htimes, i5, true_and]
    · simp only [e, if_false] at hm'
      have := h.info k m hm'
      cases k with
      | static l' => exact this
      | dyn l' p' =>
        have hne : ¬((l, p) = (l', p')) := by
          intro e'; cases e'; exact e rfl
        obtain ⟨a1, a2, a3, a4, a6, a5⟩ := this
        refine ⟨a1, a2, ?_, ?_, a6, ?_⟩
        · rw [a3]; simp [Spec.dynInfo, Spec.addNode, OMap.find?_insert, hne]
        · rw [a4]; simp [Spec.dynInfo, Spec.addNode, OMap.find?_insert, hne]
        · intro t'; rw [a5, hstamp]; simp [e]

end

/-! ## Padding -/

theorem DynLayer.pad_spec (d : DynLayer) (n : Nat) :
    (d.pad n).nodes = d.nodes ++ List.replicate n none ∧ (d.pad n).id = d.id ∧ (d.pad n).pre = d.pre ∧
    (d.pad n).times = d.times ∧ (d.pad n).next = d.next ∧ (d.pad n).edges = d.edges ∧
    ∀ j, (d.pad n).status.find? j =
      if d.nodes.length < j ∧ j ≤ d.nodes.length + n then some .deleted else d.status.find? j := by
  induction n generalizing d with
  | zero =>
    refine ⟨by simp [pad], rfl, rfl, rfl, rfl, rfl, ?_⟩
    intro j; rw [if_neg (by omega)]; rfl
  | succ n ih =>
    obtain ⟨h1, h2, h3, h4, h5, h6, h7⟩ := ih { d with
      nodes := d.nodes ++ [none], status := d.status.insert (d.nodes.length + 1) .deleted }
    refine ⟨?_, h2, h3, h4, h5, h6, ?_⟩
    · rw [pad, h1]; simp [List.replicate_succ]
    · intro j
      rw [pad, h7]
      simp only [List.length_append, List.length_cons, List.length_nil, OMap.find?_insert]
      by_cases e : d.nodes.length + 1 = j
      · subst e; simp
      · by_cases e' : d.nodes.length < j ∧ j ≤ d.nodes.length + (n + 1)
        · rw [if_pos (by omega), if_pos e']
        · rw [if_neg (by omega), if_neg e, if_neg e']


theorem DynLayer.insertEdge_next (d : DynLayer) (x : Nat) (s t : NodeId) (info : Option EdgeAttrs) :
    { d with next := x }.insertEdge s t info =
      (d.insertEdge s t info >>= fun r => .ok ({ r.1 with next := x }, r.2)) := by
  simp only [insertEdge]
  by_cases h1 : s = t
  · simp [h1]
  · have e1 : ({ d with next := x } : DynLayer).hasEdge s t = d.hasEdge s t := rfl
    have e2 : ∀ n, ({ d with next := x } : DynLayer).hasNode n = d.hasNode n := fun _ => rfl
    simp only [h1, if_false, e1, e2]
    by_cases h2 : d.hasEdge s t = true
    · simp [h2]
    · by_cases h3 : (!d.hasNode s || !d.hasNode t) = true
      · simp [h2, h3]
      · simp only [h2, h3, if_false]
        have hm : ∀ (d : DynLayer) (i : Nat) (f : Node → Node), ({ d with next := x } : DynLayer).modIdx i f =
            (d.modIdx i f >>= fun d' => .ok { d' with next := x }) := by
          intro d i f
          simp only [modIdx, slot]
          cases d.nodes[i]? with
          | none => rfl
          | some o => cases o <;> rfl
        rw [hm]
        cases hq : d.modIdx (d.pre.index s) (fun x => { x with siblings := x.siblings.add t }) with
        | ub => rfl
        | throw e => rfl
        | ok d1 =>
          simp only [Res.bind_ok]
          rw [hm]
          cases hq' : d1.modIdx (d1.pre.index t) (fun x => { x with siblings := x.siblings.add s }) with
          | ub => rfl
          | throw e => rfl
          | ok d2 => rfl

section
variable {g : Graph} {σ : Spec}

theorem Adv.trans' {gone : NodeStatus} {v v1 v2 : View} {σ1 σ2 : Spec} (a1 : Adv gone v v1 σ1) (a2 : Adv gone v1 v2 σ2)
    (hn : ∀ k n, (v1.node k n).isSome = (v2.node k n).isSome) (he : v1.ec = v.ec) : Adv gone v v2 σ2 :=
  ⟨a2.r, a1.nlog.trans a2.nlog (fun k n => .inr (hn k n)), a1.elog.trans a2.elog (fun c key => .inl (by simp [View.hasE, he]))⟩

/-- `insertEdge` on one existing layer, at the graph level, whatever the endpoints. -/
theorem R.layer_insert_any (h : R g σ) {k : LayerKey} {b : BaseLayer} (hb : g.layerAt? k = some b) (s t : NodeId)
    (info : Option EdgeAttrs) (gone : NodeStatus) (hne : s ≠ t) (he : σ.hasEdge s t = false) :
    ∃ b' r, b.insertEdge s t info = .ok (b', r) ∧ b'.fits k ∧
      Adv gone g.view (g.setLayer k b').view
        (if σ.key? s = some k ∧ σ.key? t = some k then σ.addEdge s t (info.getD {}) else σ) := by
  by_cases hk : σ.key? s = some k ∧ σ.key? t = some k
  · obtain ⟨i, hi, hik⟩ := Spec.exists_of_key? hk.1
    obtain ⟨j, hj, hjk⟩ := Spec.exists_of_key? hk.2
    subst hik
    obtain ⟨b', e, f, A⟩ := h.layer_insert hi hj hjk.symm hne he hb info gone
    exact ⟨b', true, e, f, by rw [if_pos hk]; exact A⟩
  · refine ⟨b, false, ?_, Graph.fits_of_layerAt? hb, ?_⟩
    · refine BaseLayer.insertEdge_missing (h.blive hb) ?_ info
      have hnd : ∀ n, σ.key? n ≠ some k → b.nd n = none := by
        intro n hn
        rw [← Graph.view_node_of_layerAt? hb]
        have := RV.hasN_eq h k n
        simp only [hn, decide_false] at this
        simpa using this
      by_cases h1 : σ.key? s = some k
      · exact .inr (hnd t (fun h2 => hk ⟨h1, h2⟩))
      · exact .inl (hnd s h1)
    · rw [if_neg hk, Graph.setLayer_self hb]; exact Adv.refl gone h

theorem Prefix.makeId_ne {p : Prefix} {i j : Nat} (hi : i < 2 ^ 32) (hj : j < 2 ^ 32) (h : i ≠ j) : p.makeId i ≠ p.makeId j := by
  intro e
  have := congrArg (Prefix.index p) e
  rw [Prefix.index_makeId p p hi, Prefix.index_makeId p p hj] at this
  exact h this

/-- Appending to an existing dynamic layer. -/
theorem R.emplaceDyn_in (h : R g σ) (hw : SWF σ) {l : LayerId} {p : Prefix} {d : DynLayer} (hd : g.dynLayer? l p = some d)
    (hp : p.plain = true) (hl : l ≠ UNKNOWN_LAYER) (hlt : (σ.dynInfo l p).next < 2 ^ 32)
    (hnt : (σ.dynInfo l p).next = (σ.dynInfo l p).top)
    (hn : σ.key? (p.makeId (σ.dynInfo l p).next) = none) (t : Stamp) (a : NodeAttrs) (link : Bool) (gone : NodeStatus) :
    ∃ d' ok, d.emplaceNode t (some a) link = .ok (d', ok) ∧ ok = (σ.emplaceDyn l p t a link).2 ∧
      Adv gone g.view
        (if ok then { g.setDyn l p d' with lookup := g.lookup.insert (p.makeId (σ.dynInfo l p).next) (.dyn l p) }
          else g.setDyn l p d' : Graph).view (σ.emplaceDyn l p t a link).1 ∧
      SWF (σ.emplaceDyn l p t a link).1 := by
  have hb : g.layerAt? (.dyn l p) = some (.dyn d) := by simp [Graph.layerAt?, hd]
  obtain ⟨i1, i2, i3, i4, i6, i5⟩ := h.info (.dyn l p) (BaseLayer.info (.dyn d)) (by simp [Graph.view, hb])
  simp only [BaseLayer.info] at i1 i2 i3 i4 i5 i6
  generalize hN : (σ.dynInfo l p).next = N at *
  have hncont : σ.nodes.contains (p.makeId N) = false := by rw [Spec.contains_of_key?, hn]; rfl
  have hmatch := Prefix.isMatch_makeId p hlt
  have hidx := Prefix.index_makeId p p hlt
  by_cases hst : σ.hasStamp (.dyn l p) t = true
  · refine ⟨d, false, ?_, ?_, ?_, ?_⟩
    · simp [DynLayer.emplaceNode, i5, hst]
    · simp [Spec.emplaceDyn, hN, hncont, hst]
    · have : g.setDyn l p d = g := Graph.setLayer_self hb
      simp only [Spec.emplaceDyn, hN, hncont, hst, Bool.false_eq_true, if_false, this, if_true]
      exact Adv.refl gone h
    · simpa [Spec.emplaceDyn, hN, hncont, hst] using hw
  · -- the layer with the node stored
    let node : Node := { id := p.makeId N, layer := l, timestamp := some t, attrs := some a }
    let d1 : DynLayer := { id := l, pre := p, times := d.times.add t, nodes := d.nodes ++ [some node], status := d.status.insert N .new, next := N, edges := d.edges }
    let d1n : DynLayer := { d1 with next := N + 1 }
    let i0 : NodeInfo := ⟨.dyn l p, some t, a⟩
    let σ1 : Spec := { σ with dyn := σ.dyn.insert (l, p) ⟨N + 1, N + 1⟩ }.addNode (p.makeId N) i0
    let g1 : Graph := { g.setDyn l p d1n with lookup := g.lookup.insert (p.makeId N) (.dyn l p) }
    have hlen : d.nodes.length = N := by rw [i4, ← hnt]
    have hnodes : ∀ j, j < 2 ^ 32 → ((d.nodes ++ [some node])[j]?).join = if j = p.index (p.makeId N) then some (bareNode (p.makeId N) i0) else (d.nodes[j]?).join := by
      intro j hj
      rw [hidx]
      by_cases e : j = N
      · subst e; rw [List.getElem?_append_right (by omega)]; simp [hlen, node, bareNode, i0, LayerKey.layer]
      · simp only [e, if_false]
        rcases Nat.lt_or_ge j d.nodes.length with h' | h'
        · rw [List.getElem?_append_left h']
        · rw [List.getElem?_eq_none (by simp; omega), List.getElem?_eq_none h']
    have hold : ∀ j, j < 2 ^ 32 → NodeStatus.live (d.status.find? j) = ((d.nodes[j]?).join).isSome := by
      intro j hj
      have := (h.blive hb) (p.makeId j)
      simpa [BaseLayer.nst, BaseLayer.nd, i2, Prefix.isMatch_makeId p hj, Prefix.index_makeId p p hj] using this
    obtain ⟨r1, r2, r3, r4⟩ := h.addDyn (d' := d1n) hw hd hn hmatch t a i1.symm i2.symm rfl hnodes
      (by
        intro j hj
        show NodeStatus.live ((d.status.insert N .new).find? j) = _
        rw [show d1n.nodes = d.nodes ++ [some node] from rfl, hnodes j hj, hidx, OMap.find?_insert]
        by_cases e : N = j
        · subst e; simp [NodeStatus.live]
        · simp [e, Ne.symm e, hold j hj])
      (by intro t'; exact OMap.contains_add _ _ _)
      (by
        intro j hj
        have hj' : ((d.status.insert N .new).find? j).isSome = true := hj
        rw [OMap.find?_insert] at hj'
        by_cases e : N = j
        · omega
        · rw [if_neg e] at hj'; exact i6 j hj')
    have hlen1 : d1n.nodes.length = N + 1 := by show (d.nodes ++ [some node]).length = _; simp [hlen]
    rw [hlen1] at r1
    have R1 : R g1 σ1 := r1
    have A1 : Adv gone g.view g1.view σ1 := by
      refine ⟨r1, nlog_addNode gone (h.node_none hn _) r2 ?_, ELog.of_ec r4⟩
      intro k m
      rw [show g1.view.st k m = _ from r3 k m]
      by_cases e : LayerKey.dyn l p = k
      · subst e
        have hv : g.view.st (.dyn l p) m = if p.isMatch m then d.status.find? (p.index m) else none := by
          simp [Graph.view, hb, BaseLayer.nst, i2]
        rw [hv]
        simp only [if_true, true_and]
        by_cases em : p.isMatch m = true
        · simp only [em, if_true]
          show (d.status.insert N .new).find? (p.index m) = _
          rw [OMap.find?_insert]
          by_cases e' : p.makeId N = m
          · subst e'; simp [hidx]
          · have : N ≠ p.index m := by
              intro e''
              exact e' (Prefix.eq_of_index hmatch em (by rw [hidx, e'']))
            simp [e', this]
        · have : p.makeId N ≠ m := by rintro rfl; exact em hmatch
          simp [em, this]
      · simp [e]
    have W1 : SWF σ1 := by
      refine hw.addNode hn i0 ?_ ?_ ?_ ?_ ?_
      · intro k hk; rw [OMap.contains_insert]; simp [hk]
      · simp [i0, Spec.hasKey, OMap.contains_insert]
      · simpa [i0, LayerKey.valid, LayerKey.layer] using hl
      · intro l' p' e; cases e; exact ⟨hp, hmatch, rfl⟩
      · intro l' p' m j e hm hj hs
        cases e
        exact hst (Spec.hasStamp_iff.2 ⟨m, j, hm, hj, hs.symm⟩)
    have hgen : ∀ b, d.emplaceNode t (some a) b = (if b && decide (0 < N) then
        (d1.insertEdge (p.makeId (N - 1)) (p.makeId N) none >>= fun r => .ok ({ r.1 with next := N + 1 }, true)) else .ok (d1n, true)) := by
      intro b
      simp only [DynLayer.emplaceNode, i5, hst, Bool.false_eq_true, if_false]
      simp only [List.length_append, List.length_cons, List.length_nil, i3, hN, i2, i1, hlen]
      by_cases hb : b = true
      · by_cases h0 : 0 < N
        · have h0' : 0 + 1 < N + 1 := by omega
          simp only [hb, h0, gt_iff_lt, Bool.true_and, decide_true, if_true, Nat.add_sub_cancel,
            show decide (1 < N + (0 + 1)) = true by simpa using h0, show N + (0 + 1) - 1 = N by omega,
            show N + (0 + 1) - 2 = N - 1 by omega]
          show (d1.insertEdge (p.makeId (N - 1)) (p.makeId N) none >>= _) = _
          cases hq : d1.insertEdge (p.makeId (N - 1)) (p.makeId N) none with
          | ub => rfl
          | throw e => rfl
          | ok r =>
            have hnx : r.1.next = N := by
              have := DynLayer.insertEdge_next d1 d1.next (p.makeId (N - 1)) (p.makeId N) none
              have e' : ({ d1 with next := d1.next } : DynLayer) = d1 := rfl
              rw [e', hq] at this
              simp only [Res.bind_ok, Res.ok.injEq] at this
              have h2 := congrArg (fun q : DynLayer × Bool => q.1.next) this
              simp only at h2
              rw [h2]
            simp [hnx]
        · have : N = 0 := by omega
          subst this
          simp [hb, d1n, d1, node]
      · simp only [Bool.not_eq_true] at hb
        simp [hb, d1n, d1, node, show N + (0 + 1) - 1 = N by omega]
    by_cases hlink : (link && decide (0 < N)) = true
    · have h0 : 0 < N := by simp only [Bool.and_eq_true, decide_eq_true_eq] at hlink; exact hlink.2
      have hne : p.makeId (N - 1) ≠ p.makeId N := Prefix.makeId_ne (by omega) hlt (by omega)
      have hb1 : g1.layerAt? (.dyn l p) = some (.dyn d1n) := by
        exact (Graph.layerAt?_setLayer' (g := g) (k := .dyn l p) (b := .dyn d1n) trivial (.dyn l p)).trans (if_pos rfl)
      have hE : σ1.hasEdge (p.makeId (N - 1)) (p.makeId N) = false := (hw.no_hasEdge hn _).2
      obtain ⟨b', r, e, f, A2⟩ := R1.layer_insert_any hb1 (p.makeId (N - 1)) (p.makeId N) none gone hne hE
      have hq : ∃ d2 r', d1.insertEdge (p.makeId (N - 1)) (p.makeId N) none = .ok (d2, r') ∧ b' = .dyn { d2 with next := N + 1 } := by
        simp only [BaseLayer.insertEdge] at e
        rw [show d1n = { d1 with next := N + 1 } from rfl, DynLayer.insertEdge_next] at e
        cases hq : d1.insertEdge (p.makeId (N - 1)) (p.makeId N) none with
        | ub => rw [hq] at e; simp at e
        | throw x => rw [hq] at e; simp at e
        | ok r' =>
          rw [hq] at e
          simp only [Res.bind_ok, Res.ok.injEq, Prod.mk.injEq] at e
          exact ⟨r'.1, r'.2, rfl, e.1.symm⟩
      obtain ⟨d2, r', hq, rfl⟩ := hq
      have hkey : σ1.key? (p.makeId N) = some (.dyn l p) := by simp [σ1, Spec.key?_addNode, i0]
      have hkey' : σ1.key? (p.makeId (N - 1)) = σ.key? (p.makeId (N - 1)) := by
        simp only [σ1, Spec.key?_addNode, Ne.symm hne, if_false]; rfl
      have hsp : σ.emplaceDyn l p t a link = (if σ1.key? (p.makeId (N - 1)) = some (.dyn l p) ∧ σ1.key? (p.makeId N) = some (.dyn l p)
          then σ1.addEdge (p.makeId (N - 1)) (p.makeId N) {} else σ1, true) := by
        rw [hkey, hkey']
        simp only [Spec.emplaceDyn, hN, hncont, hst, ← hnt, Bool.false_eq_true, if_false, hlink, Bool.true_and, decide_eq_true_eq, and_true]
        by_cases hz : σ.key? (p.makeId (N - 1)) = some (.dyn l p)
        · rw [if_pos hz, if_pos hz]
        · rw [if_neg hz, if_neg hz]
      refine ⟨{ d2 with next := N + 1 }, true, ?_, ?_, ?_, ?_⟩
      · rw [hgen, if_pos hlink, hq]; rfl
      · rw [hsp]
      · rw [hsp]
        have hgg : g1.setLayer (.dyn l p) (.dyn { d2 with next := N + 1 }) =
            { g.setDyn l p { d2 with next := N + 1 } with lookup := g.lookup.insert (p.makeId N) (.dyn l p) } := by
          have := Graph.setLayer_setLayer (g := g) (k := .dyn l p) (b := .dyn d1n) (b' := .dyn { d2 with next := N + 1 }) trivial trivial
          have e2 : (g.setDyn l p d1n).setDyn l p { d2 with next := N + 1 } = g.setDyn l p { d2 with next := N + 1 } := this
          show { (g.setDyn l p d1n).setDyn l p { d2 with next := N + 1 } with lookup := g.lookup.insert (p.makeId N) (.dyn l p) } = _
          rw [e2]
        rw [hgg] at A2
        simp only [if_true]
        refine Adv.trans' A1 A2 ?_ r4
        intro k n
        rw [RV.hasN_eq R1, RV.hasN_eq A2.r]
        split <;> rfl
      · rw [hsp]
        by_cases hz : σ1.key? (p.makeId (N - 1)) = some (.dyn l p) ∧ σ1.key? (p.makeId N) = some (.dyn l p)
        · simp only [if_pos hz]
          exact W1.addEdge (by rw [Spec.contains_of_key?, hz.1]; rfl) (by rw [Spec.contains_of_key?, hz.2]; rfl) hne _
        · simp only [if_neg hz]; exact W1
    · have hsp : σ.emplaceDyn l p t a link = (σ1, true) := by
        simp only [Bool.not_eq_true] at hlink
        simp only [Spec.emplaceDyn, hN, hncont, hst, ← hnt, Bool.false_eq_true, if_false, hlink, Bool.false_and]
        rfl
      refine ⟨d1n, true, ?_, ?_, ?_, ?_⟩
      · rw [hgen, if_neg hlink]
      · rw [hsp]
      · rw [hsp]; exact A1
      · rw [hsp]; exact W1


theorem R.dynLayer? (h : R g σ) {l : LayerId} {p : Prefix} (hd : σ.dyn.contains (l, p) = true) : ∃ d, g.dynLayer? l p = some d := by
  rw [← h.dyn_layer, Graph.hasDynLayer] at hd
  exact Option.isSome_iff_exists.1 hd

theorem R.dyn_next (h : R g σ) (l : LayerId) (p : Prefix) :
    g.nextDynId l p = p.makeId (σ.dynInfo l p).next := by
  unfold Graph.nextDynId
  cases hd : g.dynLayer? l p with
  | some d =>
    obtain ⟨i1, i2, i3, i4, i6, i5⟩ := h.info (.dyn l p) (BaseLayer.info (.dyn d)) (by simp [Graph.view, Graph.layerAt?, hd])
    simp only [BaseLayer.info] at i3
    simp [i3]
  | none =>
    have : σ.dyn.contains (l, p) = false := by rw [← h.dyn_layer]; simp [Graph.hasDynLayer, hd]
    simp [Spec.dynInfo, OMap.contains_eq_false.1 this]

theorem Spec.dynInfo_create (σ : Spec) {l : LayerId} {p : Prefix} (hd : σ.dyn.contains (l, p) = false) :
    Spec.dynInfo { σ with dyn := σ.dyn.insert (l, p) {} } l p = σ.dynInfo l p := by
  simp [dynInfo, OMap.contains_eq_false.1 hd]

/-- Append to a dynamic layer (created on demand). -/
theorem R.emplaceDyn (h : R g σ) (hw : SWF σ) {l : LayerId} {p : Prefix} (hp : p.plain = true) (hl : l ≠ UNKNOWN_LAYER)
    (hlt : (σ.dynInfo l p).next < 2 ^ 32) (hnt : (σ.dynInfo l p).next = (σ.dynInfo l p).top)
    (t : Stamp) (a : NodeAttrs) (link : Bool) (gone : NodeStatus) :
    ∃ g', g.emplaceDyn l p t (some a) link = .ok (g', (σ.emplaceDyn l p t a link).2) ∧
      Adv gone g.view g'.view (σ.emplaceDyn l p t a link).1 ∧ SWF (σ.emplaceDyn l p t a link).1 := by
  simp only [Graph.emplaceDyn, h.dyn_next, Graph.hasNode, OMap.contains, h.lookup']
  cases hn : σ.key? (p.makeId (σ.dynInfo l p).next) with
  | some k =>
    have hc : σ.nodes.contains (p.makeId (σ.dynInfo l p).next) = true := by rw [Spec.contains_of_key?, hn]; rfl
    refine ⟨g, by simp [Spec.emplaceDyn, hc], ?_, ?_⟩
    · simpa [Spec.emplaceDyn, hc] using Adv.refl gone h
    · simpa [Spec.emplaceDyn, hc] using hw
  | none =>
    simp only [Option.isSome_none, Bool.false_eq_true, if_false]
    cases hd : σ.dyn.contains (l, p) with
    | true =>
      obtain ⟨d, hd'⟩ := h.dynLayer? hd
      have hg : (if g.hasDynLayer l p = true then g else (g.createDynamicLayer l p).1) = g := by rw [h.dyn_layer, hd]; rfl
      obtain ⟨d', ok, e1, e2, A, W⟩ := h.emplaceDyn_in hw hd' hp hl hlt hnt hn t a link gone
      rw [hg, hd']
      simp only [Res.deref_some, Res.bind_ok, e1]
      cases ok with
      | true =>
        refine ⟨{ g.setDyn l p d' with lookup := g.lookup.insert (p.makeId (σ.dynInfo l p).next) (.dyn l p) }, ?_, ?_, W⟩
        · simp only [Bool.not_true, Bool.false_eq_true, if_false, Res.pure_eq, ← e2]; rfl
        · simpa using A
      | false => exact ⟨g.setDyn l p d', by simp [← e2], by simpa using A, W⟩
    | false =>
      have hc := h.createDyn_new hw hd gone
      have hR : R (g.setDyn l p { id := l, pre := p }) { σ with dyn := σ.dyn.insert (l, p) {} } := hc.r
      have hg : (if g.hasDynLayer l p = true then g else (g.createDynamicLayer l p).1) = g.setDyn l p { id := l, pre := p } := by
        rw [h.dyn_layer, hd]; simp [Graph.createDynamicLayer, h.dyn_layer, hd]
      have hd' : (g.setDyn l p { id := l, pre := p }).dynLayer? l p = some { id := l, pre := p } := by
        rw [Graph.dynLayer?_setDyn]; simp
      have hdi := Spec.dynInfo_create σ hd
      have hsp : Spec.emplaceDyn { σ with dyn := σ.dyn.insert (l, p) {} } l p t a link = σ.emplaceDyn l p t a link := by
        simp only [Spec.emplaceDyn, hdi]
        have e1 : ∀ k t, Spec.hasStamp { σ with dyn := σ.dyn.insert (l, p) {} } k t = σ.hasStamp k t := fun _ _ => rfl
        have e2 : ∀ n, Spec.key? { σ with dyn := σ.dyn.insert (l, p) {} } n = σ.key? n := fun _ => rfl
        have hc : σ.nodes.contains (p.makeId (σ.dynInfo l p).next) = false := by rw [Spec.contains_of_key?, hn]; rfl
        have hs : σ.hasStamp (.dyn l p) t = false := by
          cases hh : σ.hasStamp (.dyn l p) t with
          | false => rfl
          | true =>
            obtain ⟨n, i, h1, h2, h3⟩ := Spec.hasStamp_iff.1 hh
            have := (hw.node n i h1).1
            rw [h2] at this
            simp only [Spec.hasKey, hd] at this; cases this
        simp only [e1, e2, hc, hs, OMap.insert_insert, Bool.false_eq_true, if_false]
      obtain ⟨d', ok, e1, e2, A, W⟩ := hR.emplaceDyn_in (hw.setDyn l p {}) hd' hp hl (by rw [hdi]; exact hlt)
        (by rw [hdi]; exact hnt) (by rw [hdi]; exact hn) t a link gone
      rw [hsp, hdi] at A
      rw [hsp] at e2 W
      rw [hg, hd']
      simp only [Res.deref_some, Res.bind_ok, e1]
      have hec : (g.setDyn l p { id := l, pre := p }).view.ec = g.view.ec := by
        have hb : g.layerAt? (.dyn l p) = none := by
          have := h.has (.dyn l p)
          simp only [Graph.view, Option.isSome_map, Spec.hasKey, hd] at this
          simpa using this
        rw [show (g.setDyn l p { id := l, pre := p }).view = _ from
          Graph.view_setLayer (g := g) (k := .dyn l p) (b := .dyn { id := l, pre := p }) trivial]
        funext c
        simp only [View.setL]
        by_cases e : c = .within (.dyn l p)
        · subst e; simp [Graph.view, Graph.ecAt?, hb, BaseLayer.ec]
        · simp [e]
      have hAA : ∀ {v2 : View}, Adv gone (g.setDyn l p { id := l, pre := p }).view v2 (σ.emplaceDyn l p t a link).1 →
          Adv gone g.view v2 (σ.emplaceDyn l p t a link).1 := by
        intro v2 hA
        refine ⟨hA.r, hc.nlog.trans hA.nlog ?_, hc.elog.trans hA.elog ?_⟩
        · intro k n; left
          rw [RV.hasN_eq h, RV.hasN_eq hc.r]; rfl
        · intro c key; left; simp [View.hasE, hec]
      cases ok with
      | true =>
        refine ⟨{ (g.setDyn l p { id := l, pre := p }).setDyn l p d' with lookup := g.lookup.insert (p.makeId (σ.dynInfo l p).next) (.dyn l p) }, ?_, ?_, W⟩
        · simp only [Bool.not_true, Bool.false_eq_true, if_false, Res.pure_eq, ← e2]; rfl
        · exact hAA (by simp only [if_true] at A; exact A)
      | false => exact ⟨(g.setDyn l p { id := l, pre := p }).setDyn l p d', by simp [← e2], hAA (by simpa using A), W⟩

/-- The change log of `emplacePrevDynamicNode`: the new node is NEW, and every index from one past the old
end of the node vector up to one past the new end is marked DELETED (unless it is the new node). -/
def PadLog (v v' : View) (l : LayerId) (p : Prefix) (n : NodeId) (oldTop newTop : Nat) : Prop := ∀ k m,
  v'.st k m = if k = .dyn l p ∧ m = n then some .new
    else if k = .dyn l p ∧ p.isMatch m = true ∧ oldTop < p.index m ∧ p.index m ≤ newTop then some .deleted
    else v.st k m

theorem R.emplacePrev_in (h : R g σ) (hw : SWF σ) {l : LayerId} {n : NodeId} {d : DynLayer}
    (hd : g.dynLayer? l (Prefix.fromId n) = some d) (hp : (Prefix.fromId n).plain = true) (hl : l ≠ UNKNOWN_LAYER)
    (hn : σ.key? n = none) (t : Stamp) (ht : σ.hasStamp (.dyn l (Prefix.fromId n)) t = false) (a : NodeAttrs)
    (hix : (Prefix.fromId n).index n + 1 < 2 ^ 32) :
    ∃ d', d.emplaceNodeAtIndex t ((Prefix.fromId n).index n) (some a) = (d', true) ∧
      R { g.setDyn l (Prefix.fromId n) d' with lookup := g.lookup.insert n (.dyn l (Prefix.fromId n)) } (σ.emplacePrev l n t a).1 ∧
      SWF (σ.emplacePrev l n t a).1 ∧
      { g.setDyn l (Prefix.fromId n) d' with lookup := g.lookup.insert n (.dyn l (Prefix.fromId n)) : Graph }.view.ec = g.view.ec ∧
      PadLog g.view { g.setDyn l (Prefix.fromId n) d' with lookup := g.lookup.insert n (.dyn l (Prefix.fromId n)) : Graph }.view
        l (Prefix.fromId n) n (σ.dynInfo l (Prefix.fromId n)).top
        (max (σ.dynInfo l (Prefix.fromId n)).top ((Prefix.fromId n).index n + 1)) := by
  generalize hpp : Prefix.fromId n = p at *
  have hmatch : p.isMatch n = true := (Prefix.isMatch_iff p n).2 hpp.symm
  have hb : g.layerAt? (.dyn l p) = some (.dyn d) := by simp [Graph.layerAt?, hd]
  obtain ⟨i1, i2, i3, i4, i6, i5⟩ := h.info (.dyn l p) (BaseLayer.info (.dyn d)) (by simp [Graph.view, hb])
  simp only [BaseLayer.info] at i1 i2 i3 i4 i5 i6
  have hold : ∀ j, j < 2 ^ 32 → NodeStatus.live (d.status.find? j) = ((d.nodes[j]?).join).isSome := by
    intro j hj
    have := (h.blive hb) (p.makeId j)
    simpa [BaseLayer.nst, BaseLayer.nd, i2, Prefix.isMatch_makeId p hj, Prefix.index_makeId p p hj] using this
  have hIlt := Prefix.index_lt p n
  generalize hI : p.index n = I at *
  have hnoneI : (d.nodes[I]?).join = none := by
    have := h.node_none hn (.dyn l p)
    rw [Graph.view_node_of_layerAt? hb] at this
    simpa [BaseLayer.nd, i2, hmatch, hI] using this
  have hnot : d.hasNodeByIndex I = false := by
    have hh := hold I hIlt
    rw [hnoneI] at hh
    unfold DynLayer.hasNodeByIndex
    cases hs : d.status.find? I with
    | none => rfl
    | some s => rw [hs] at hh; cases s <;> first | rfl | cases hh
  -- the padded layer
  let q : DynLayer := if I ≥ d.nodes.length then d.pad (I - d.nodes.length + 1) else d
  have hq : q.id = d.id ∧ q.pre = d.pre ∧ q.times = d.times ∧ q.next = d.next ∧ q.edges = d.edges ∧
      q.nodes.length = max d.nodes.length (I + 1) ∧ (∀ j : Nat, (q.nodes[j]?).join = (d.nodes[j]?).join) ∧
      ∀ j, q.status.find? j = if d.nodes.length < j ∧ j ≤ max d.nodes.length (I + 1) then some .deleted else d.status.find? j := by
    by_cases hge : I ≥ d.nodes.length
    · obtain ⟨h1, h2, h3, h4, h5, h6, h7⟩ := DynLayer.pad_spec d (I - d.nodes.length + 1)
      have hq' : q = d.pad (I - d.nodes.length + 1) := if_pos hge
      rw [hq']
      refine ⟨h2, h3, h4, h5, h6, ?_, ?_, ?_⟩
      · rw [h1]; simp; omega
      · intro j
        rw [h1]
        rcases Nat.lt_or_ge j d.nodes.length with h' | h'
        · rw [List.getElem?_append_left h']
        · rw [List.getElem?_append_right h', List.getElem?_eq_none h', List.getElem?_replicate]
          split <;> rfl
      · intro j; rw [h7]
        have : max d.nodes.length (I + 1) = d.nodes.length + (I - d.nodes.length + 1) := by omega
        rw [this]
    · have hq' : q = d := if_neg hge
      rw [hq']
      have hmx : max d.nodes.length (I + 1) = d.nodes.length := by omega
      refine ⟨rfl, rfl, rfl, rfl, rfl, hmx.symm, fun _ => rfl, ?_⟩
      intro j; rw [hmx, if_neg (by omega)]
  obtain ⟨q1, q2, q3, q4, q5, q6, q7, q8⟩ := hq
  let d' : DynLayer := { q with
    times := q.times.add t
    nodes := q.nodes.set I (some { id := q.pre.makeId I, layer := q.id, timestamp := some t, attrs := some a })
    status := q.status.insert I .new }
  have hid : q.pre.makeId I = n := by rw [q2, i2, ← hI]; exact Prefix.makeId_index hmatch
  have hIq : I < q.nodes.length := by omega
  have hnodes : ∀ j, j < 2 ^ 32 → (d'.nodes[j]?).join = if j = I then some (bareNode n ⟨.dyn l p, some t, a⟩) else (d.nodes[j]?).join := by
    intro j _
    show ((q.nodes.set I _)[j]?).join = _
    by_cases e : I = j
    · subst e; simp [hIq, hid, bareNode, LayerKey.layer, q1, i1]
    · rw [List.getElem?_set_ne e, q7, if_neg (Ne.symm e)]
  have hlive : ∀ j, j < 2 ^ 32 → NodeStatus.live (d'.status.find? j) = ((d'.nodes[j]?).join).isSome := by
    intro j hj
    rw [hnodes j hj]
    show NodeStatus.live ((q.status.insert I .new).find? j) = _
    rw [OMap.find?_insert]
    by_cases e : I = j
    · subst e; simp [NodeStatus.live]
    · rw [if_neg e, if_neg (Ne.symm e), q8]
      split
      · rename_i h'
        rw [List.getElem?_eq_none (by omega)]; rfl
      · exact hold j hj
  have hsp : σ.emplacePrev l n t a = ({ σ with dyn := σ.dyn.insert (l, p) ⟨(σ.dynInfo l p).next, max (σ.dynInfo l p).top (I + 1)⟩ }.addNode n ⟨.dyn l p, some t, a⟩, true) := by
    have hc : σ.nodes.contains n = false := by rw [Spec.contains_of_key?, hn]; rfl
    simp only [Spec.emplacePrev, hc, Bool.false_eq_true, if_false, hpp, hI]
  obtain ⟨r1, r2, r3, r4⟩ := h.addDyn (d' := d') hw hd hn hmatch t a (by exact q1) (by exact q2) (by exact q5)
    (by rw [hI]; exact hnodes) hlive (by intro t'; show (q.times.add t).contains t' = _; rw [q3]; exact OMap.contains_add _ _ _)
    (by
      intro j hj
      have hj' : ((q.status.insert I .new).find? j).isSome = true := hj
      rw [OMap.find?_insert] at hj'
      by_cases e : I = j
      · omega
      · rw [if_neg e, q8] at hj'
        split at hj'
        · rename_i hh
          rcases Nat.lt_or_ge d.nodes.length (I + 1) with h' | h'
          · omega
          · omega
        · exact i6 j hj')
  refine ⟨d', ?_, ?_, ?_, r4, ?_⟩
  · simp only [DynLayer.emplaceNodeAtIndex, hnot, Bool.false_eq_true, if_false]; rfl
  · rw [hsp]
    have e1 : d'.next = (σ.dynInfo l p).next := by show q.next = _; rw [q4, i3]
    have e2 : d'.nodes.length = max (σ.dynInfo l p).top (I + 1) := by
      show (q.nodes.set I _).length = _
      rw [List.length_set, q6, i4]
    rw [e1, e2] at r1
    exact r1
  · rw [hsp]
    refine hw.addNode hn _ ?_ ?_ ?_ ?_ ?_
    · intro k hk; rw [OMap.contains_insert]; simp [hk]
    · simp [Spec.hasKey, OMap.contains_insert]
    · simpa [LayerKey.valid, LayerKey.layer] using hl
    · intro l' p' e; cases e; exact ⟨hp, hmatch, rfl⟩
    · intro l' p' m j e hm hj hs
      cases e
      have := Spec.hasStamp_iff.2 ⟨m, j, hm, hj, hs.symm⟩
      rw [ht] at this; cases this
  · intro k m
    rw [r3]
    by_cases e : LayerKey.dyn l p = k
    · subst e
      have hv : g.view.st (.dyn l p) m = if p.isMatch m then d.status.find? (p.index m) else none := by
        simp [Graph.view, hb, BaseLayer.nst, i2]
      rw [hv]
      simp only [if_true, true_and]
      by_cases em : p.isMatch m = true
      · simp only [em, if_true, true_and]
        show (q.status.insert I .new).find? (p.index m) = _
        rw [OMap.find?_insert]
        by_cases e' : m = n
        · subst e'; simp [hI]
        · have : I ≠ p.index m := by
            intro e''
            exact e' (Prefix.eq_of_index em hmatch (by rw [hI, e'']))
          rw [if_neg this, if_neg e', q8, i4]
      · have : m ≠ n := by rintro rfl; exact em hmatch
        simp [em, this]
    · simp [e, Ne.symm e]

/-- Put a node at the index encoded in its id. -/
theorem R.emplacePrev (h : R g σ) (hw : SWF σ) {l : LayerId} {n : NodeId} (hp : (Prefix.fromId n).plain = true)
    (hl : l ≠ UNKNOWN_LAYER) (t : Stamp) (ht : σ.nodes.contains n = true ∨ σ.hasStamp (.dyn l (Prefix.fromId n)) t = false) (a : NodeAttrs)
    (hix : (Prefix.fromId n).index n + 1 < 2 ^ 32) :
    ∃ g', g.emplacePrev l n t (some a) = .ok (g', (σ.emplacePrev l n t a).2) ∧
      R g' (σ.emplacePrev l n t a).1 ∧ SWF (σ.emplacePrev l n t a).1 ∧ g'.view.ec = g.view.ec ∧
      (if σ.nodes.contains n then g' = g else
        PadLog g.view g'.view l (Prefix.fromId n) n (σ.dynInfo l (Prefix.fromId n)).top
          (max (σ.dynInfo l (Prefix.fromId n)).top ((Prefix.fromId n).index n + 1))) := by
  simp only [Graph.emplacePrev, Graph.hasNode, OMap.contains, h.lookup']
  cases hn : σ.key? n with
  | some k =>
    have hc : σ.nodes.contains n = true := by rw [Spec.contains_of_key?, hn]; rfl
    have hc' : (σ.nodes.find? n).isSome = true := hc
    refine ⟨g, ?_, ?_, ?_, rfl, ?_⟩
    · simp [Spec.emplacePrev, hc]
    · simpa [Spec.emplacePrev, hc] using h
    · simpa [Spec.emplacePrev, hc] using hw
    · simp [hc']
  | none =>
    have hc : σ.nodes.contains n = false := by rw [Spec.contains_of_key?, hn]; rfl
    have hc' : (σ.nodes.find? n).isSome = false := hc
    have ht' : σ.hasStamp (.dyn l (Prefix.fromId n)) t = false := by
      rcases ht with ht | ht
      · rw [hc] at ht; cases ht
      · exact ht
    simp only [Option.isSome_none, Bool.false_eq_true, if_false, hc']
    cases hd : σ.dyn.contains (l, Prefix.fromId n) with
    | true =>
      obtain ⟨d, hd'⟩ := h.dynLayer? hd
      have hg : (if g.hasDynLayer l (Prefix.fromId n) = true then g else (g.createDynamicLayer l (Prefix.fromId n)).1) = g := by rw [h.dyn_layer, hd]; rfl
      obtain ⟨d', e1, R1, W1, E1, P1⟩ := h.emplacePrev_in hw hd' hp hl hn t ht' a hix
      rw [hg, hd']
      simp only [Res.deref_some, Res.bind_ok, e1]
      refine ⟨{ g.setDyn l (Prefix.fromId n) d' with lookup := g.lookup.insert n (.dyn l (Prefix.fromId n)) }, ?_, R1, W1, E1, P1⟩
      simp only [Bool.not_true, Bool.false_eq_true, if_false, Res.pure_eq, Spec.emplacePrev, hc]; rfl
    | false =>
      have hcr := h.createDyn_new hw hd .deleted
      generalize hpp : Prefix.fromId n = p at *
      have hR : R (g.setDyn l p { id := l, pre := p }) { σ with dyn := σ.dyn.insert (l, p) {} } := hcr.r
      have hg : (if g.hasDynLayer l p = true then g else (g.createDynamicLayer l p).1) = g.setDyn l p { id := l, pre := p } := by
        rw [h.dyn_layer, hd]; simp [Graph.createDynamicLayer, h.dyn_layer, hd]
      have hd' : (g.setDyn l p { id := l, pre := p }).dynLayer? l p = some { id := l, pre := p } := by
        rw [Graph.dynLayer?_setDyn]; simp
      have hdi := Spec.dynInfo_create σ hd
      have hsp : Spec.emplacePrev { σ with dyn := σ.dyn.insert (l, p) {} } l n t a = σ.emplacePrev l n t a := by
        simp only [Spec.emplacePrev, hpp, hdi, hc, OMap.insert_insert, Bool.false_eq_true, if_false]
      have hb : g.layerAt? (.dyn l p) = none := by
        have := h.has (.dyn l p)
        simp only [Graph.view, Option.isSome_map, Spec.hasKey, hd] at this
        simpa using this
      have hvw : (g.setDyn l p { id := l, pre := p }).view = _ :=
          Graph.view_setLayer (g := g) (k := .dyn l p) (b := .dyn { id := l, pre := p }) trivial
      have hec : (g.setDyn l p { id := l, pre := p }).view.ec = g.view.ec := by
        rw [hvw]
        funext c
        simp only [View.setL]
        by_cases e : c = .within (.dyn l p)
        · subst e; simp [Graph.view, Graph.ecAt?, hb, BaseLayer.ec]
        · simp [e]
      have hst : (g.setDyn l p { id := l, pre := p }).view.st = g.view.st := by
        rw [hvw]
        funext k m
        simp only [View.setL]
        by_cases e : LayerKey.dyn l p = k
        · subst e; simp [Graph.view, hb, BaseLayer.nst]
        · simp [e]
      subst hpp
      obtain ⟨d', e1, R1, W1, E1, P1⟩ := hR.emplacePrev_in (hw.setDyn l _ {}) hd' hp hl hn t ht' a hix
      rw [hsp] at R1 W1
      rw [hdi] at P1
      rw [hg, hd']
      simp only [Res.deref_some, Res.bind_ok, e1]
      refine ⟨{ (g.setDyn l (Prefix.fromId n) { id := l, pre := Prefix.fromId n }).setDyn l (Prefix.fromId n) d' with lookup := g.lookup.insert n (.dyn l (Prefix.fromId n)) }, ?_, R1, W1, E1.trans hec, ?_⟩
      · simp only [Bool.not_true, Bool.false_eq_true, if_false, Res.pure_eq, Spec.emplacePrev, hc]; rfl
      · intro k m; rw [← hst]; exact P1 k m

end
end Verif
