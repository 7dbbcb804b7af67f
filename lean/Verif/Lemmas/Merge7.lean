import Verif.Lemmas.Merge6
import Verif.Lemmas.Mem4
/-! # The loops of `mergeGraph` over dynamic layers -/

namespace Verif

/-- The node an iteration is about. -/
def MergeEv.node? : MergeEv → Option NodeId
  | .dynNode _ _ n _ _ => some n
  | .node _ n _ => some n
  | .rmNode _ n => some n
  | _ => none

section
variable {P : MergePar} {g g' : Graph} {σ σ0 τ : Spec}

theorem Does.split {a b : List Op} (h : Does g σ (a ++ b) g') : ∃ g1, Does g σ a g1 ∧ Does g1 (σ.after a) b g' := by
  induction a generalizing g σ with
  | nil => exact ⟨g, .nil h.r h.w, h⟩
  | cons op a ih =>
    obtain ⟨g1, h1, h2⟩ := Does.head (show Does g σ (op :: (a ++ b)) g' from h)
    obtain ⟨g2, h3, h4⟩ := ih h2
    refine ⟨g2, ?_, h4⟩
    have := h1.trans (b := a) (g'' := g2) (by simpa using h3)
    simpa using this

theorem Did.split_cons {e : MergeEv} {es : List MergeEv} (h : Did P g σ (e :: es) g') :
    ∃ g1, Does g σ (plan P σ e) g1 ∧ e.Fits σ ∧ Did P g1 (σ.after (plan P σ e)) es g' := by
  obtain ⟨g1, h1, h2⟩ := Does.split (show Does g σ (plan P σ e ++ planAll P (σ.after (plan P σ e)) es) g' from h.does)
  exact ⟨g1, h1, h.fits.1, h2, h.fits.2⟩

/-- Induction along a run. -/
theorem Did.induct (Q : Graph → Spec → Prop) {evs : List MergeEv} (h : Did P g σ evs g') (h0 : Q g σ)
    (step : ∀ g σ e g', e ∈ evs → Q g σ → Does g σ (plan P σ e) g' → e.Fits σ → Q g' (σ.after (plan P σ e))) :
    Q g' (σ.merged P evs) := by
  induction evs generalizing g σ with
  | nil =>
    obtain ⟨outs, e⟩ := h.does.run
    simp only [planAll, Graph.run, Res.pure_eq, Res.ok.injEq, Prod.mk.injEq] at e
    rw [← e.1]; exact h0
  | cons e es ih =>
    obtain ⟨g1, h1, h2, h3⟩ := h.split_cons
    rw [Spec.merged_cons]
    exact ih h3 (step g σ e g1 List.mem_cons_self h0 h1 h2) (fun g σ e' g' he => step g σ e' g' (List.mem_cons_of_mem _ he))

theorem MInv.run {evs : List MergeEv} (h : MInv P σ0 τ g σ) (hd : Did P g σ evs g') (hs : ∀ e ∈ evs, e.From τ) :
    MInv P σ0 τ g' (σ.merged P evs) :=
  hd.induct (MInv P σ0 τ) h (fun _ _ e _ he hq hdo hf => hq.step hdo hf (hs e he))

theorem ptFx_other {ev : MergeEv} {m : NodeId} (h : ev.node? ≠ some m) (x : Option NodeInfo) : ptFx P ev m x = x := by
  cases ev <;> simp only [MergeEv.node?, ne_eq, Option.some.injEq] at h <;> simp [ptFx, h]

theorem foldl_other {evs : List MergeEv} {m : NodeId} (h : ∀ e ∈ evs, e.node? ≠ some m) (x : Option NodeInfo) :
    evs.foldl (fun x ev => ptFx P ev m x) x = x := by
  induction evs generalizing x with
  | nil => rfl
  | cons e es ih =>
    rw [List.foldl_cons, ptFx_other (h e List.mem_cons_self)]
    exact ih (fun e' he => h e' (List.mem_cons_of_mem _ he)) x

/-- Edges that are new so far join nodes of one layer. -/
def MCross (σ0 σ : Spec) : Prop := ∀ a b, σ.hasEdge a b = true → σ0.hasEdge a b = true ∨ σ.key? a = σ.key? b

theorem MCross.step {ev : MergeEv} (h : MCross σ0 σ) (hw : SWF σ) (hw' : SWF (σ.after (plan P σ ev))) (hf : ev.Fits σ)
    (hi : ∀ s t a, ev ≠ .inter s t a) : MCross σ0 (σ.after (plan P σ ev)) := by
  intro a b he
  obtain ⟨-, ha', hb'⟩ := hw'.hasEdge_nodes he
  obtain ⟨ka', hka'⟩ := Spec.key_of_contains ha'
  obtain ⟨kb', hkb'⟩ := Spec.key_of_contains hb'
  have hcore : ∀ ka kb, σ.key? a = some ka → σ.key? b = some kb → ka = kb → (σ.after (plan P σ ev)).key? a = (σ.after (plan P σ ev)).key? b := by
    intro ka kb h1 h2 h3
    rw [hka', hkb', plan_key_old ev hf h1 hka', plan_key_old ev hf h2 hkb', h3]
  obtain ⟨e, he⟩ := OMap.contains_eq_true.1 he
  rcases plan_edges_add ev hf he with h1 | ⟨s, t, w, h1, h2, h3, h4, h5, h6⟩
  · have h2 : σ.hasEdge a b = true := OMap.contains_eq_true.2 ⟨e, h1⟩
    obtain ⟨-, ha, hb⟩ := hw.hasEdge_nodes h2
    obtain ⟨ka, hka⟩ := Spec.key_of_contains ha
    obtain ⟨kb, hkb⟩ := Spec.key_of_contains hb
    rcases h a b h2 with h3 | h3
    · exact .inl h3
    · rw [hka, hkb] at h3
      injection h3 with h3
      exact .inr (hcore ka kb hka hkb h3)
  · cases ev <;> simp only [MergeEv.offers, Option.some.injEq, Prod.mk.injEq, reduceCtorEq] at h1
    · rename_i k u v s' t' a'
      obtain ⟨rfl, rfl, rfl⟩ := h1
      obtain ⟨q1, q2⟩ := h6 _ _ _ rfl
      rcases (EdgeKey.of_inj.1 h2) with ⟨rfl, rfl⟩ | ⟨rfl, rfl⟩
      · exact .inr (hcore _ _ q1 q2 rfl)
      · exact .inr (hcore _ _ q2 q1 rfl)
    · exact absurd rfl (hi _ _ _)

theorem MCross.run {evs : List MergeEv} (h : MCross σ0 σ) (hd : Did P g σ evs g') (hi : ∀ e ∈ evs, ∀ s t a, e ≠ .inter s t a) :
    MCross σ0 (σ.merged P evs) :=
  hd.induct (fun _ σ => MCross σ0 σ) h (fun _ _ e _ he hq hdo hf => hq.step hdo.w hdo.rep.2 hf (hi e he))

theorem MInv.crossFree (h : MInv P σ0 τ g σ) (hc : MCross σ0 σ) {n : NodeId}
    (h0 : σ0.crossFree n = true) (hw0 : SWF σ0) : σ.crossFree n = true := by
  unfold Spec.crossFree at *
  rw [List.all_eq_true] at *
  rintro ⟨m, i⟩ he
  have hm : σ.nodes.find? m = some i := OMap.mem_toList.1 he
  cases hh : σ.hasEdge n m with
  | false => rfl
  | true =>
    rcases hc n m hh with h1 | h1
    · obtain ⟨-, ha, hb⟩ := hw0.hasEdge_nodes h1
      obtain ⟨ka, hka⟩ := Spec.key_of_contains ha
      obtain ⟨kb, hkb⟩ := Spec.key_of_contains hb
      obtain ⟨j, hj, hjk⟩ := Spec.exists_of_key? hkb
      have hb' := h0 (m, j) (OMap.mem_toList.2 hj)
      obtain ⟨-, hna, -⟩ := h.w.hasEdge_nodes hh
      obtain ⟨kn, hkn⟩ := Spec.key_of_contains hna
      have e1 : kn = ka := by
        rcases h.keys n kn hkn with h2 | ⟨h2, -⟩
        · rw [hka] at h2; injection h2 with h2; exact h2.symm
        · rw [hka] at h2; cases h2
      have e2 : i.key = j.key := by
        rcases h.keys m i.key (Spec.key?_eq hm) with h2 | ⟨h2, -⟩
        · rw [hkb] at h2; injection h2 with h2; rw [← h2, hjk]
        · rw [hkb] at h2; cases h2
      subst e1
      simp only [h1, hka, Bool.true_and] at hb'
      simp only [hkn, e2, Bool.true_and]
      exact hb'
    · rw [Spec.key?_eq hm] at h1
      simp [h1]

/-- the edge loop of `DynamicSceneGraphLayer::mergeLayer` -/
theorem MInv.dynEdges {l : LayerId} {p : Prefix} (es : OMap EdgeKey Edge) (hinfo : ∀ k e, es.find? k = some e → e.info.isSome = true)
    {d : DynLayer} {lk : OMap NodeId LayerKey} (h : MInv P σ0 τ (g.withDyn l p d lk) σ) :
    ∃ d', foldRes DynLayer.mergeEdgeStep d es.toList = .ok d' ∧
      Did P (g.withDyn l p d lk) σ (edgeEvs (.dyn l p) id es) (g.withDyn l p d' lk) ∧
      MInv P σ0 τ (g.withDyn l p d' lk) (σ.merged P (edgeEvs (.dyn l p) id es)) := by
  refine Did.fold (emb := fun d => g.withDyn l p d lk) (fun d σ => MInv P σ0 τ (g.withDyn l p d lk) σ) (fun s σ h => ⟨h.r, h.w⟩) es.toList ?_ h
  rintro d σ ⟨k, e⟩ he hI
  obtain ⟨a, ha⟩ := Option.isSome_iff_exists.1 (hinfo k e (OMap.mem_toList.1 he))
  have hb := Graph.withDyn_at g l p d lk
  obtain ⟨b', e1, hfit, hdo⟩ := hI.r.mergeEdge (P := P) hI.w hb e.source e.target e.source e.target a
  cases b' with
  | static x => cases hfit
  | dyn d' =>
    have hset : (g.withDyn l p d lk).setLayer (.dyn l p) (.dyn d') = g.withDyn l p d' lk := Graph.withDyn_set g l p d d' lk
    rw [hset] at hdo
    refine ⟨d', _, ?_, by rw [ha]; rfl, hdo, trivial, hI.step hdo trivial trivial⟩
    unfold BaseLayer.mergeEdge at e1
    unfold DynLayer.mergeEdgeStep
    simp only [show (BaseLayer.dyn d).hasEdge e.source e.target = d.hasEdge e.source e.target from rfl] at e1
    split at e1
    · rename_i hh
      rw [if_pos hh]; cases e1; rfl
    · rename_i hh
      rw [if_neg hh, ha]
      split at e1
      · rename_i hst
        cases e1
        simp [DynLayer.insertEdge, hst]
      · simp only [BaseLayer.insertEdge] at e1
        obtain ⟨r, hr, hr'⟩ := bind_eq_ok e1
        obtain ⟨r2, hr2, hr2'⟩ := bind_eq_ok hr
        simp only [Res.ok.injEq] at hr2' hr'
        subst hr2'
        simp only [BaseLayer.dyn.injEq] at hr'
        simp [hr2, hr']

/-- the iterations for one dynamic layer of the other graph -/
def dynEvs (e : (LayerId × Prefix) × DynLayer) : List MergeEv :=
  .create e.1.1 e.1.2 :: (dynNodeEvs e.1.1 e.1.2 0 e.2.nodes ++ edgeEvs (.dyn e.1.1 e.1.2) id e.2.edges.edges)

theorem Graph.withDyn_self (h : g.dynLayer? l p = some d) : g.withDyn l p d g.lookup = g := by
  have hb : g.layerAt? (.dyn l p) = some (.dyn d) := by simp [Graph.layerAt?, h]
  have : g.setDyn l p d = g := Graph.setLayer_self hb
  unfold Graph.withDyn
  rw [this]

theorem dynNodeEvs_node {l : LayerId} {p : Prefix} {i : Nat} {ns : List (Option Node)} {ev : MergeEv} (h : ev ∈ dynNodeEvs l p i ns) :
    ∃ j y t a, ns[j]? = some (some y) ∧ y.timestamp = some t ∧ y.attrs = some a ∧ ev = .dynNode l p (p.makeId (i + j)) t a := by
  induction ns generalizing i with
  | nil => cases h
  | cons x ns ih =>
    have up : ev ∈ dynNodeEvs l p (i + 1) ns →
        ∃ j y t a, (x :: ns)[j]? = some (some y) ∧ y.timestamp = some t ∧ y.attrs = some a ∧ ev = .dynNode l p (p.makeId (i + j)) t a := by
      intro hh
      obtain ⟨j, y, t, a, h1, h2, h3, h4⟩ := ih hh
      exact ⟨j + 1, y, t, a, by simpa using h1, h2, h3, by rw [h4, show i + (j + 1) = i + 1 + j by omega]⟩
    cases x with
    | none => exact up h
    | some y =>
      unfold dynNodeEvs at h
      split at h
      · rename_i t a ht ha
        rcases List.mem_cons.1 h with rfl | h
        · exact ⟨0, y, t, a, rfl, ht, ha, rfl⟩
        · exact up h
      · exact up h

theorem edgeEvs_mem {k : LayerKey} {f : NodeId → NodeId} {es : OMap EdgeKey Edge} {ev : MergeEv} :
    ev ∈ edgeEvs k f es ↔ ∃ q e a, es.find? q = some e ∧ e.info = some a ∧ ev = .edge k e.source e.target (f e.source) (f e.target) a := by
  unfold edgeEvs
  rw [List.mem_filterMap]
  constructor
  · rintro ⟨⟨q, e⟩, h1, h2⟩
    obtain ⟨a, ha, rfl⟩ := Option.map_eq_some_iff.1 h2
    exact ⟨q, e, a, OMap.mem_toList.1 h1, ha, rfl⟩
  · rintro ⟨q, e, a, h1, h2, rfl⟩
    exact ⟨(q, e), OMap.mem_toList.2 h1, by rw [h2]; rfl⟩

/-- what a dynamic layer stores -/
theorem R.dyn_slots {o : Graph} (h : R o τ) (ht : τ.Tops) {l : LayerId} {p : Prefix} {d : DynLayer} (hd : o.dynLayer? l p = some d)
    (hall : ∀ i, i < (τ.dynInfo l p).top → τ.key? (p.makeId i) = some (.dyn l p)) :
    d.nodes.length = (τ.dynInfo l p).top ∧ d.nodes.length ≤ 2 ^ 32 ∧
    ∀ j y, d.nodes[j]? = some y → ∃ x, τ.nodes.find? (p.makeId j) = some x ∧ x.key = .dyn l p ∧ y = some (τ.mkNode (p.makeId j) x) := by
  have hb : o.layerAt? (.dyn l p) = some (.dyn d) := by simp [Graph.layerAt?, hd]
  obtain ⟨i1, i2, i3, i4, i6, i5⟩ := h.info (.dyn l p) (BaseLayer.info (.dyn d)) (by simp [Graph.view, hb])
  simp only [BaseLayer.info] at i1 i2 i3 i4 i5 i6
  have hsmall : d.nodes.length ≤ 2 ^ 32 := by rw [i4]; exact ht l p
  refine ⟨i4, hsmall, ?_⟩
  intro j y hy
  have hj := (List.getElem?_eq_some_iff.1 hy).1
  obtain ⟨x, hx, hxk⟩ := Spec.exists_of_key? (hall j (by omega))
  refine ⟨x, hx, hxk, ?_⟩
  have hrec := RV.node h (.dyn l p) (p.makeId j)
  rw [Graph.view_node_of_layerAt? hb, Spec.nodeRec_key hx hxk] at hrec
  obtain ⟨-, hslot⟩ := BaseLayer.nd_dyn_lt hrec
  rw [i2, Prefix.index_makeId p p (by omega)] at hslot
  rw [hy] at hslot
  injection hslot


theorem MInv.mergeDyn {o : Graph} (ho : R o τ) (hwτ : SWF τ) (hto : τ.Tops)
    (hh : ∀ n k k', σ0.key? n = some k → τ.key? n = some k' → k = k')
    {l : LayerId} {p : Prefix} {d : DynLayer} (hd : o.dynLayer? l p = some d) (ht : Traj σ0 τ l p)
    (hP : P.delta l p = deltaAt P.F σ0 τ p (σ0.dynInfo l p).top)
    (h : MInv P σ0 τ g σ) (hu : Untouched σ0 σ l p) :
    ∃ g', Graph.mergeDyn P.F P.cfg g ((l, p), d) = .ok g' ∧ Did P g σ (dynEvs ((l, p), d)) g' ∧ MInv P σ0 τ g' (σ.merged P (dynEvs ((l, p), d))) := by
  obtain ⟨hlen, hsmall, hslots⟩ := ho.dyn_slots hto hd ht.other
  -- the layer is created if missing
  obtain ⟨g1, e1, -⟩ := h.r.createDyn h.w l p .deleted
  have hdo : Does g σ (plan P σ (.create l p)) g1 := .one h.r h.w rfl (out := .bool (σ.createDyn l p).2) (by
    show (Res.ok _ : Res (Graph × Out)) = _
    rw [e1])
  have hm1 := h.step hdo (ev := .create l p) trivial trivial
  have hg1 : (if g.hasDynLayer l p then g else (g.createDynamicLayer l p).1) = g1 := by
    split
    · rename_i hc
      have := congrArg Prod.fst e1
      simpa [Graph.createDynamicLayer, hc] using this
    · rw [e1]
  have hu1 : Untouched σ0 (σ.after (plan P σ (.create l p))) l p := by
    refine ⟨?_, ?_⟩
    · rw [← hu.info]
      unfold Spec.dynInfo
      rw [plan_dyn (P := P) (.create l p) trivial]
      dsimp only
      split
      · rfl
      · rename_i hc
        simp [OMap.contains_eq_false.1 (by simpa using hc)]
    · intro n i hi
      rw [plan_nodes (P := P) (.create l p) trivial]
      exact hu.nodes n i hi
  generalize hσ1 : σ.after (plan P σ (.create l p)) = σ1 at *
  obtain ⟨dd, hdd⟩ : ∃ dd, g1.dynLayer? l p = some dd := by
    rw [← hg1]
    split
    · rename_i hc; exact Option.isSome_iff_exists.1 hc
    · rename_i hc
      have := Graph.dynLayer?_setDyn g l p { id := l, pre := p } l p
      rw [if_pos ⟨rfl, rfl⟩] at this
      exact ⟨{ id := l, pre := p }, by simp [Graph.createDynamicLayer, hc, this]⟩
  have hself := Graph.withDyn_self hdd
  rw [← hself] at hm1
  have hnodes : ∃ d' lk' D, foldRes (DynLayer.mergeNodeStep P.F P.cfg) (dd, g1.lookup, P.F.zero) ((List.range d.nodes.length).zip d.nodes) = .ok (d', lk', D) ∧
      Did P (g1.withDyn l p dd g1.lookup) σ1 (dynNodeEvs l p 0 d.nodes) (g1.withDyn l p d' lk') ∧
      MInv P σ0 τ (g1.withDyn l p d' lk') (σ1.merged P (dynNodeEvs l p 0 d.nodes)) := by
    by_cases he : d.nodes = []
    · rw [he]
      exact ⟨dd, g1.lookup, _, rfl, .nil hm1.r hm1.w, hm1⟩
    · have h0 : 0 < d.nodes.length := List.length_pos_iff.2 he
      obtain ⟨y, hy⟩ : ∃ y, d.nodes[0]? = some y := ⟨_, List.getElem?_eq_getElem h0⟩
      obtain ⟨x, hx, hxk, -⟩ := hslots 0 y hy
      have hp := (hwτ.dyn _ x l p hx hxk).1
      have hl : l ≠ UNKNOWN_LAYER := by
        have := (hwτ.node _ x hx).2
        rw [hxk] at this
        simpa [LayerKey.valid, LayerKey.layer] using this
      have := MInv.dynNodes (P := P) hp hl hh hwτ ht hP d.nodes 0 (by omega) (by simpa using hslots) (by omega) hm1 (hu1.start ht)
      simpa [List.range_eq_range', deltaAt] using this
  obtain ⟨d2, lk2, D, e2, did2, m2⟩ := hnodes
  have hec : o.view.ec (.within (.dyn l p)) = d.edges := by
    simp [Graph.view, Graph.ecAt?, Graph.layerAt?, hd, BaseLayer.ec]
  have hinfo : ∀ k e, d.edges.edges.find? k = some e → e.info.isSome = true := by
    intro k e he
    rw [← hec] at he
    obtain ⟨-, -, h3, -⟩ := ho.edge_rec hwτ he
    rw [h3]; rfl
  obtain ⟨d3, e3, did3, m3⟩ := MInv.dynEdges (P := P) d.edges.edges hinfo m2
  refine ⟨g1.withDyn l p d3 lk2, ?_, ?_, ?_⟩
  · unfold Graph.mergeDyn
    dsimp only
    rw [hg1, hdd]
    simp only [Res.deref_some, Res.bind_ok, DynLayer.mergeLayer, e2, e3, Res.pure_eq]
    rfl
  · refine .cons hdo trivial ?_
    rw [hσ1]
    rw [hself] at did2
    exact did2.trans did3
  · show MInv P σ0 τ _ (σ.merged P (.create l p :: (dynNodeEvs l p 0 d.nodes ++ edgeEvs (.dyn l p) id d.edges.edges)))
    rw [Spec.merged_cons, hσ1, Spec.merged_append]
    exact m3

end
end Verif
