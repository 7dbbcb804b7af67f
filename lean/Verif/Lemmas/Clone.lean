import Verif.Model.Clone
import Verif.Lemmas.Mirror
import Verif.Spec.Clone
/-! # What `clone` does -/

namespace Verif

/-- The call made for a node. -/
def cloneOp (e : NodeId × NodeInfo) : Op :=
  match e.2.key with
  | .dyn l _ => .emplacePrev l e.1 (e.2.stamp.getD 0) e.2.attrs
  | .static l => .emplaceNode l e.1 e.2.attrs
/-- The call made for an edge. -/
def cloneEdgeOp (e : EdgeInfo) : Op := .insertEdge e.src e.tgt (some e.attrs)

namespace Spec

/-- The nodes can be inserted from scratch. -/
structure Fresh (τ : Spec) (N : List (NodeId × NodeInfo)) : Prop where
  layer : ∀ e ∈ N, ∀ l, e.2.key = .static l → τ.layerIds.contains l = true
  valid : ∀ e ∈ N, e.2.key.layer ≠ UNKNOWN_LAYER
  kind : ∀ e ∈ N, ∀ l p, e.2.key = .dyn l p → e.2.stamp.isSome = true ∧ p = Prefix.fromId e.1 ∧ (Prefix.fromId e.1).plain = true ∧
      (Prefix.fromId e.1).index e.1 + 1 < 2 ^ 32
  new : ∀ e ∈ N, τ.nodes.find? e.1 = none
  fresh : ∀ e ∈ N, ∀ m j, τ.nodes.find? m = some j → e.2.key.dynamic = true → j.key = e.2.key → j.stamp = e.2.stamp → m = e.1
  ids : (N.map Prod.fst).Nodup
  stamps : ∀ e ∈ N, ∀ e' ∈ N, e.2.key.dynamic = true → e.2.key = e'.2.key → e.2.stamp = e'.2.stamp → e.1 = e'.1

theorem Fresh.step {τ : Spec} {e : NodeId × NodeInfo} {N : List (NodeId × NodeInfo)} (h : Fresh τ (e :: N)) :
    (cloneOp e).ok τ = true ∧ (τ.step (cloneOp e)).1.nodes = τ.nodes.insert e.1 e.2.cloned ∧
    (τ.step (cloneOp e)).1.edges = τ.edges ∧ (τ.step (cloneOp e)).1.mesh = τ.mesh ∧
    (τ.step (cloneOp e)).1.layerIds = τ.layerIds ∧
    (∀ l p, (τ.step (cloneOp e)).1.dyn.contains (l, p) = (τ.dyn.contains (l, p) || decide (e.2.key = .dyn l p))) := by
  have hv := h.valid e List.mem_cons_self
  have hc := h.new e List.mem_cons_self
  have hcc : τ.nodes.contains e.1 = false := OMap.contains_eq_false.2 hc
  unfold cloneOp NodeInfo.cloned
  cases hk : e.2.key with
  | static l =>
    have hl := h.layer e List.mem_cons_self l hk
    rw [hk] at hv
    have hv' : l ≠ UNKNOWN_LAYER := hv
    simp [Op.ok, Spec.step, Spec.ans, emplaceNode, hcc, hl, hv', addNode, -List.contains_eq_mem, hk]
    try congr 1
    try (simp [← hk])
  | dyn l p =>
    obtain ⟨h1, h2, h3, h4⟩ := h.kind e List.mem_cons_self l p hk
    rw [hk] at hv
    have hv' : l ≠ UNKNOWN_LAYER := hv
    obtain ⟨t, ht⟩ := Option.isSome_iff_exists.1 h1
    have hs : τ.hasStamp (.dyn l (Prefix.fromId e.1)) t = false := by
      rw [Bool.eq_false_iff]
      intro hs
      obtain ⟨m, j, hj, hk', hst⟩ := Spec.hasStamp_iff.1 hs
      have := h.fresh e List.mem_cons_self m j hj (by rw [hk]; rfl) (by rw [hk', hk, h2]) (by rw [hst, ht])
      subst this
      rw [hc] at hj
      cases hj
    simp only [Op.ok, Spec.step, Spec.ans, emplacePrev, hcc, Bool.false_eq_true, if_false, addNode, and_self, and_true, ht, Option.getD_some, true_and]
    refine ⟨by simp [prevOk, h3, hv', hs, h4], ?_, ?_⟩
    · congr 1
      rw [← h2, ← hk, ← ht]
    · intro l' p'
      rw [OMap.contains_insert, ← h2, Bool.or_comm]
      congr 1
      simp

theorem Fresh.tail {τ τ' : Spec} {e : NodeId × NodeInfo} {N : List (NodeId × NodeInfo)} (h : Fresh τ (e :: N))
    (hn : τ'.nodes = τ.nodes.insert e.1 e.2.cloned) (hl : τ'.layerIds = τ.layerIds) : Fresh τ' N where
  layer x hx := by rw [hl]; exact h.layer x (List.mem_cons_of_mem _ hx)
  valid x hx := h.valid x (List.mem_cons_of_mem _ hx)
  kind x hx := h.kind x (List.mem_cons_of_mem _ hx)
  new x hx := by
    have hne : e.1 ≠ x.1 := by
      have := h.ids
      simp only [List.map_cons, List.nodup_cons] at this
      intro he
      exact this.1 (List.mem_map.2 ⟨x, hx, he.symm⟩)
    rw [hn, OMap.find?_insert_ne _ _ hne]
    exact h.new x (List.mem_cons_of_mem _ hx)
  fresh x hx m j hj hd hk hs := by
    rw [hn, OMap.find?_insert] at hj
    split at hj
    · rename_i he
      cases hj
      rw [← he]
      have hek : e.2.cloned.key = e.2.key := by unfold NodeInfo.cloned; split <;> rfl
      rw [hek] at hk
      refine h.stamps e List.mem_cons_self x (List.mem_cons_of_mem _ hx) (by rw [hk]; exact hd) hk ?_
      rw [← hs]
      unfold NodeInfo.cloned
      split
      · rename_i hks
        rw [← hk, hks] at hd
        cases hd
      · rfl
    · exact h.fresh x (List.mem_cons_of_mem _ hx) m j hj hd hk hs
  ids := by have := h.ids; simp only [List.map_cons, List.nodup_cons] at this; exact this.2
  stamps x hx y hy := h.stamps x (List.mem_cons_of_mem _ hx) y (List.mem_cons_of_mem _ hy)

theorem clone_nodes {N : List (NodeId × NodeInfo)} {τ : Spec} (h : Fresh τ N) :
    Op.okAll τ (N.map cloneOp) = true ∧
    (∀ e ∈ N, (τ.after (N.map cloneOp)).nodes.find? e.1 = some e.2.cloned) ∧
    (∀ m, m ∉ N.map Prod.fst → (τ.after (N.map cloneOp)).nodes.find? m = τ.nodes.find? m) ∧
    (τ.after (N.map cloneOp)).edges = τ.edges ∧
    (τ.after (N.map cloneOp)).mesh = τ.mesh ∧ (τ.after (N.map cloneOp)).layerIds = τ.layerIds ∧
    (∀ l p, (τ.after (N.map cloneOp)).dyn.contains (l, p) = (τ.dyn.contains (l, p) || N.any (fun e => decide (e.2.key = .dyn l p)))) := by
  induction N generalizing τ with
  | nil => exact ⟨rfl, by simp, by simp, rfl, rfl, rfl, by simp⟩
  | cons e N ih =>
    obtain ⟨h1, h2, h3, h5, h6, h7⟩ := h.step
    have ht := h.tail h2 h6
    obtain ⟨i1, i3, i4, i5, i7, i8, i9⟩ := ih ht
    simp only [List.map_cons, Op.okAll, h1, Bool.true_and, after_cons]
    have hne : e.1 ∉ N.map Prod.fst := by
      have := h.ids
      simp only [List.map_cons, List.nodup_cons] at this
      exact this.1
    refine ⟨i1, ?_, ?_, i5.trans h3, i7.trans h5, i8.trans h6, ?_⟩
    · intro x hx
      rcases List.mem_cons.1 hx with rfl | hx
      · rw [i4 _ hne, h2, OMap.find?_insert_self]
      · exact i3 x hx
    · intro m hm
      simp only [List.mem_cons, not_or] at hm
      rw [i4 m hm.2, h2, OMap.find?_insert_ne _ _ (Ne.symm hm.1)]
    · intro l p
      rw [i9, h7, List.any_cons, Bool.or_assoc]

theorem clone_edges (Es : List EdgeInfo) {τ : Spec} (hk : (Es.map ekey).Nodup)
    (he : ∀ e ∈ Es, e.src ≠ e.tgt ∧ τ.nodes.contains e.src = true ∧ τ.nodes.contains e.tgt = true ∧ τ.edges.find? (ekey e) = none) :
    Op.okAll τ (Es.map cloneEdgeOp) = true ∧
    (τ.after (Es.map cloneEdgeOp)).nodes = τ.nodes ∧ (τ.after (Es.map cloneEdgeOp)).mesh = τ.mesh ∧
    (τ.after (Es.map cloneEdgeOp)).layerIds = τ.layerIds ∧ (τ.after (Es.map cloneEdgeOp)).dyn = τ.dyn ∧
    (∀ e ∈ Es, (τ.after (Es.map cloneEdgeOp)).edges.find? (ekey e) = some e) ∧
    (∀ k, k ∉ Es.map ekey → (τ.after (Es.map cloneEdgeOp)).edges.find? k = τ.edges.find? k) := by
  induction Es generalizing τ with
  | nil => exact ⟨rfl, rfl, rfl, rfl, rfl, by simp, by simp⟩
  | cons e Es ih =>
    obtain ⟨a1, a2, a3, a4⟩ := he e List.mem_cons_self
    have hh : τ.hasEdge e.src e.tgt = false := OMap.contains_eq_false.2 a4
    have hs : (τ.step (cloneEdgeOp e)).1 = { τ with edges := τ.edges.insert (ekey e) e } := by
      simp only [cloneEdgeOp, Spec.step, Spec.ans, insertEdge, a1, a2, a3, hh, if_false, Bool.not_true, Bool.or_self, Bool.false_eq_true,
        addEdge, Option.getD_some]
      rfl
    simp only [List.map_cons, List.nodup_cons] at hk
    obtain ⟨i1, i3, i4, i5, i6, i7, i8⟩ := ih (τ := (τ.step (cloneEdgeOp e)).1) hk.2 (by
      intro x hx
      obtain ⟨b1, b2, b3, b4⟩ := he x (List.mem_cons_of_mem _ hx)
      rw [hs]
      refine ⟨b1, b2, b3, ?_⟩
      have : ekey e ≠ ekey x := fun h => hk.1 (h ▸ List.mem_map_of_mem hx)
      exact (OMap.find?_insert_ne _ _ this).trans b4)
    simp only [List.map_cons, Op.okAll, after_cons]
    refine ⟨by rw [i1]; rfl, ?_, ?_, ?_, ?_, ?_, ?_⟩
    · rw [i3, hs]
    · rw [i4, hs]
    · rw [i5, hs]
    · rw [i6, hs]
    · intro x hx
      rcases List.mem_cons.1 hx with rfl | hx
      · rw [i8 _ hk.1, hs]; exact OMap.find?_insert_self _ _ _
      · exact i7 x hx
    · intro k hkk
      simp only [List.mem_cons, not_or] at hkk
      rw [i8 k hkk.2, hs]
      exact OMap.find?_insert_ne _ _ (Ne.symm hkk.1)

end Spec

namespace Graph
variable {g : Graph} {σ : Spec}

theorem cloneNode_run (hr : R g σ) (hw : SWF σ) {h h' : Graph} {o : Out} {e : NodeId × NodeInfo} (he : σ.nodes.find? e.1 = some e.2)
    (hs : h.step (cloneOp e) = .ok (h', o)) : cloneNode g h (e.1, e.2.key) = .ok h' := by
  have hk : σ.key? e.1 = some e.2.key := by simp [Spec.key?, he]
  have hv : g.view.node e.2.key e.1 = some (σ.mkNode e.1 e.2) := by rw [RV.node hr]; simp [Spec.nodeRec, he]
  have hp := getNodePtr_ok hv (hr.kok hw hk)
  unfold cloneNode
  simp only [hp, Res.bind_ok, Res.deref_some]
  unfold cloneOp at hs
  cases hkk : e.2.key with
  | static l =>
    rw [hkk] at hs
    simp only [Graph.step, Graph.ans, Res.bind_ok, Res.ok.injEq, Prod.mk.injEq] at hs
    simp only [LayerKey.dynamic, Spec.mkNode, Res.deref_some, Res.bind_ok, hkk, LayerKey.layer]
    exact congrArg Res.ok hs.1
  | dyn l p =>
    rw [hkk] at hs
    obtain ⟨t, ht⟩ := Option.isSome_iff_exists.1 (hw.dyn e.1 e.2 l p he hkk).2.2
    simp only [Graph.step, Graph.ans, ht, Option.getD_some] at hs
    obtain ⟨r, h1, h2⟩ := bind_eq_ok hs
    cases h2
    simp only [LayerKey.dynamic, Spec.mkNode, ht, Res.deref_some, Res.bind_ok, hkk, LayerKey.layer, h1]
    rfl

theorem cloneNodes_run (hr : R g σ) (hw : SWF σ) {N : List (NodeId × NodeInfo)} (hN : ∀ e ∈ N, σ.nodes.find? e.1 = some e.2) {h h' : Graph}
    {outs : List Out} (hs : h.run (N.map cloneOp) = .ok (h', outs)) :
    foldRes (cloneNode g) h (N.map (fun e => (e.1, e.2.key))) = .ok h' := by
  induction N generalizing h outs with
  | nil => cases hs; rfl
  | cons e N ih =>
    obtain ⟨g1, o1, o2, h1, h2⟩ := Graph.run_cons hs
    simp only [List.map_cons, foldRes, cloneNode_run hr hw (hN e List.mem_cons_self) h1, Res.bind_ok]
    exact ih (fun x hx => hN x (List.mem_cons_of_mem _ hx)) h2

theorem cloneEdges_run {Es : List EdgeInfo} {h h' : Graph} {outs : List Out} (hs : h.run (Es.map cloneEdgeOp) = .ok (h', outs)) :
    foldRes cloneEdge h (Es.map Spec.mkEdge) = .ok h' := by
  induction Es generalizing h outs with
  | nil => cases hs; rfl
  | cons e Es ih =>
    obtain ⟨g1, o1, o2, h1, h2⟩ := Graph.run_cons hs
    simp only [cloneEdgeOp, Graph.step, Graph.ans] at h1
    obtain ⟨r, h3, h4⟩ := bind_eq_ok h1
    cases h4
    have : cloneEdge h (Spec.mkEdge e) = .ok r.1 := by
      unfold cloneEdge
      simp only [Spec.mkEdge, Res.deref_some, Res.bind_ok, h3]
      rfl
    simp only [List.map_cons, foldRes, this, Res.bind_ok]
    exact ih h2

end Graph

/-- The dynamic nodes of a graph have an index below the number of slots of their layer. -/
theorem R.small_index {g : Graph} {σ : Spec} (hg : R g σ) (hlen : ∀ d ∈ g.dynList, d.nodes.length < 2 ^ 32) {n : NodeId} {k : LayerKey}
    (hn : σ.key? n = some k) (hd : k.dynamic = true) : n.toNat % 2 ^ 32 ≠ 2 ^ 32 - 1 := by
  obtain ⟨i, hi, hk⟩ := Option.map_eq_some_iff.1 (show (σ.nodes.find? n).map (·.key) = some k from hn)
  cases k with
  | static l => cases hd
  | dyn l p =>
    have h4 : g.view.node (.dyn l p) n = some (σ.mkNode n i) := by
      rw [RV.node hg]; simp [Spec.nodeRec, hi, hk]
    obtain ⟨b, hb, hx⟩ := Graph.layerAt?_of_view_node h4
    simp only [Graph.layerAt?, Option.map_eq_some_iff] at hb
    obtain ⟨d, hd, rfl⟩ := hb
    have hmemd : d ∈ g.dynList := by
      simp only [Graph.dynLayer?, Option.bind_eq_some_iff] at hd
      obtain ⟨m, hm, hd⟩ := hd
      simp only [Graph.dynList, List.mem_flatMap, List.mem_map]
      exact ⟨(l, m), OMap.mem_toList.2 hm, (p, d), OMap.mem_toList.2 hd, rfl⟩
    obtain ⟨_, h5⟩ := BaseLayer.nd_dyn_lt hx
    have hlt : d.pre.index n < d.nodes.length := by
      rcases Nat.lt_or_ge (d.pre.index n) d.nodes.length with h' | h'
      · exact h'
      · rw [List.getElem?_eq_none h'] at h5; cases h5
    have hlen := hlen d hmemd
    rw [Prefix.index_eq] at hlt
    omega

/-- The history that builds a clone of the abstract graph. -/
theorem R.clone {g : Graph} {σ : Spec} (hg : R g σ) (hw : SWF σ) (hne : g.layerIds ≠ [])
    (hidx : ∀ n k, σ.key? n = some k → k.dynamic = true → n.toNat % 2 ^ 32 ≠ 2 ^ 32 - 1) :
    ∃ h ops τ, g.clone = .ok h ∧ Reached g.layerIds ops h ∧ R h τ ∧ SWF τ ∧ τ.layerIds = σ.layerIds ∧ τ.mesh = σ.mesh ∧
      (∀ n, τ.nodes.find? n = (σ.nodes.find? n).map NodeInfo.cloned) ∧ (∀ k, τ.edges.find? k = σ.edges.find? k) ∧
      (∀ l p, τ.dyn.contains (l, p) = true ↔ ∃ n i, σ.nodes.find? n = some i ∧ i.key = .dyn l p) := by
  have hlay : g.layerIds = σ.layerIds := hg.layerIds
  have hN : ∀ e ∈ σ.nodes.toList, σ.nodes.find? e.1 = some e.2 := fun e he => OMap.mem_toList.1 (show (e.1, e.2) ∈ _ from he)
  have hlk : g.lookup.toList = σ.nodes.toList.map (fun e => (e.1, e.2.key)) := by
    have : g.lookup = σ.nodes.map (fun _ i => i.key) := by
      apply OMap.ext
      intro n
      rw [show g.lookup.find? n = σ.key? n from RV.lookup hg n, OMap.find?_map]
      rfl
    rw [this]
    rfl
  have hf : (Spec.init g.layerIds).Fresh σ.nodes.toList := by
    constructor
    · intro e he l hk
      have := (hw.node e.1 e.2 (hN e he)).1
      rw [hk] at this
      show g.layerIds.contains l = true
      rw [hlay]
      exact this
    · intro e he
      have := (hw.node e.1 e.2 (hN e he)).2
      unfold LayerKey.valid at this
      simpa using this
    · intro e he l p hk
      have hi := hN e he
      obtain ⟨h1, h2, h3⟩ := hw.dyn e.1 e.2 l p hi hk
      have hp : p = Prefix.fromId e.1 := (Prefix.isMatch_iff p e.1).1 h2
      refine ⟨h3, hp, hp ▸ h1, ?_⟩
      have := hidx e.1 e.2.key (by simp [Spec.key?, hi]) (by rw [hk]; rfl)
      rw [Prefix.index_eq]
      omega
    · intro e _; rfl
    · intro e _ m j hj; cases hj
    · exact σ.nodes.keys_nodup
    · intro e he e' he' hd hk hst
      cases hk' : e.2.key with
      | static l => rw [hk'] at hd; cases hd
      | dyn l p => exact hw.stamps e.1 e'.1 e.2 e'.2 l p (hN e he) (hN e' he') hk' (by rw [← hk, hk']) hst
  obtain ⟨a1, a2, a3, a4, a5, a6, a7⟩ := Spec.clone_nodes hf
  have hnodes : ∀ n, ((Spec.init g.layerIds).after (σ.nodes.toList.map cloneOp)).nodes.find? n = (σ.nodes.find? n).map NodeInfo.cloned := by
    intro n
    cases hn : σ.nodes.find? n with
    | some i => exact a2 (n, i) (OMap.mem_toList.2 hn)
    | none =>
      rw [a3 n ?_]
      · rfl
      · intro hm
        have := OMap.mem_keys.1 (show n ∈ σ.nodes.keys from hm)
        rw [OMap.contains_eq_true, hn] at this
        obtain ⟨_, h⟩ := this
        cases h
  have hcont : ∀ n, ((Spec.init g.layerIds).after (σ.nodes.toList.map cloneOp)).nodes.contains n = σ.nodes.contains n := by
    intro n
    rw [Bool.eq_iff_iff, OMap.contains_eq_true, OMap.contains_eq_true, hnodes]
    cases σ.nodes.find? n <;> simp
  have hek : ((g.allEdges.map Spec.edgeEntry).map Spec.ekey).Nodup := by
    rw [List.map_map]; exact hg.edges_nodup hw
  have hmemE : ∀ e, e ∈ g.allEdges.map Spec.edgeEntry ↔ σ.edges.find? (Spec.ekey e) = some e := by
    intro e
    rw [List.mem_map]
    constructor
    · rintro ⟨x, hx, rfl⟩
      obtain ⟨c, k, hk⟩ := (g.mem_allEdges x).1 hx
      obtain ⟨h1, h2, _, _⟩ := hg.edge_rec hw hk
      rw [show Spec.ekey (Spec.edgeEntry x) = k from h1.symm]
      exact h2
    · intro he
      refine ⟨Spec.mkEdge e, (g.mem_allEdges _).2 ?_, rfl⟩
      obtain ⟨c, hc⟩ := Option.isSome_iff_exists.1 (Spec.placeOf_some hw (OMap.contains_eq_true.2 ⟨e, he⟩))
      refine ⟨c, Spec.ekey e, ?_⟩
      rw [(RV.ec hg c).edges]
      simp [Spec.edgeRec, he, hc]
  have hEs : (g.allEdges.map Spec.edgeEntry).map Spec.mkEdge = g.allEdges := by
    rw [List.map_map]
    refine Eq.symm ((List.map_id g.allEdges).symm.trans (List.map_congr_left ?_))
    intro e he
    obtain ⟨c, k, hk⟩ := (g.mem_allEdges e).1 he
    exact (hg.edge_rec hw hk).2.2.1
  obtain ⟨b1, b2, b3, b4, b5, b6, b7⟩ := Spec.clone_edges (τ := (Spec.init g.layerIds).after (σ.nodes.toList.map cloneOp)) _ hek (by
    intro e he
    obtain ⟨_, h2, h3, h4⟩ := hw.edge _ _ ((hmemE e).1 he)
    rw [hcont, hcont, a4]
    exact ⟨h2, h3, h4, rfl⟩)
  -- the whole history
  have hok : Op.okAll (Spec.init g.layerIds) (σ.nodes.toList.map cloneOp ++ ((g.allEdges.map Spec.edgeEntry).map cloneEdgeOp ++ meshOps g.mesh)) = true := by
    rw [Op.okAll_append, a1, Op.okAll_append, b1]
    cases g.mesh <;> rfl
  obtain ⟨h, outs, hex, hr, hwh, _⟩ := exec_ok hne hok
  refine ⟨h, _, _, ?_, ⟨hne, hok, outs, hex⟩, hr, hwh, ?_, ?_, ?_, ?_, ?_⟩
  · unfold Graph.exec at hex
    obtain ⟨h0, hc, hrun⟩ := bind_eq_ok hex
    obtain ⟨h1, o1, o2, r1, r2⟩ := Graph.run_split hrun
    obtain ⟨h2, o3, o4, r3, r4⟩ := Graph.run_split r2
    unfold Graph.clone
    simp only [hc, Res.bind_ok, hlk, Graph.cloneNodes_run hg hw hN r1]
    have := Graph.cloneEdges_run r3
    rw [hEs] at this
    rw [this]
    simp only [Res.bind_ok]
    cases hm : g.mesh with
    | none =>
      rw [hm] at r4
      cases r4
      rfl
    | some m =>
      rw [hm] at r4
      cases r4
      rfl
  · rw [Spec.after_append, Spec.after_append, ← hlay]
    refine Eq.trans ?_ (b4.trans a6)
    cases g.mesh <;> rfl
  · rw [Spec.after_append, Spec.after_append, ← (show g.mesh = σ.mesh from hg.mesh)]
    cases g.mesh with
    | none => exact b3.trans a5
    | some m => rfl
  · intro n
    rw [Spec.after_append, Spec.after_append, ← hnodes, ← b2]
    cases g.mesh <;> rfl
  · intro k
    rw [Spec.after_append, Spec.after_append]
    have : ((((Spec.init g.layerIds).after (σ.nodes.toList.map cloneOp)).after ((g.allEdges.map Spec.edgeEntry).map cloneEdgeOp)).after (meshOps g.mesh)).edges
        = (((Spec.init g.layerIds).after (σ.nodes.toList.map cloneOp)).after ((g.allEdges.map Spec.edgeEntry).map cloneEdgeOp)).edges := by
      cases g.mesh <;> rfl
    rw [this]
    cases hk : σ.edges.find? k with
    | some e =>
      have hke : k = Spec.ekey e := (hw.edge k e hk).1
      subst hke
      exact b6 e ((hmemE e).2 hk)
    | none =>
      rw [b7 k ?_, a4]
      · rfl
      · intro hm
        obtain ⟨e, he, rfl⟩ := List.mem_map.1 hm
        rw [(hmemE e).1 he] at hk
        cases hk
  · intro l p
    rw [Spec.after_append, Spec.after_append]
    have : ((((Spec.init g.layerIds).after (σ.nodes.toList.map cloneOp)).after ((g.allEdges.map Spec.edgeEntry).map cloneEdgeOp)).after (meshOps g.mesh)).dyn
        = (((Spec.init g.layerIds).after (σ.nodes.toList.map cloneOp)).after ((g.allEdges.map Spec.edgeEntry).map cloneEdgeOp)).dyn := by
      cases g.mesh <;> rfl
    rw [this, b5, a7]
    have h0 : (Spec.init g.layerIds).dyn.contains (l, p) = false := rfl
    rw [h0, Bool.false_or, List.any_eq_true]
    constructor
    · rintro ⟨e, he, hk⟩
      exact ⟨e.1, e.2, hN e he, by simpa using hk⟩
    · rintro ⟨n, i, hn, hk⟩
      exact ⟨(n, i), OMap.mem_toList.2 hn, by simpa using hk⟩

end Verif
