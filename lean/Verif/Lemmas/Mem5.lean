import Verif.Lemmas.JsonSafe
/-!
# No undefined behaviour: the remaining calls

The calls a message cannot provoke: `insertNode`, `setNodeAttributes`, `insertParentEdge`, `findEdge`, the change logs, appending to
a dynamic layer.
-/

namespace Verif
open Res (Sat)

/-- Changes the invariant does not see. -/
theorem MV.congr {v v' : View} (h : MV v) (hl : v'.lookup = v.lookup) (hn : v'.node = v.node)
    (hs : ∀ k n, NodeStatus.live (v'.st k n) = NodeStatus.live (v.st k n))
    (hi : ∀ l p m, v'.info (.dyn l p) = some m → m.pre = p ∧ m.top ≤ 2 ^ 32)
    (he : ∀ k a b, (v'.ec (.within k)).contains a b = true → (v.ec (.within k)).contains a b = true) : MV v' where
  key := by rw [hl, hn]; exact h.key
  live k n := by rw [hs, hn]; exact h.live k n
  info := hi
  stamp := by rw [hn]; exact h.stamp
  edge k a b e := by rw [hn]; exact h.edge k a b (he k a b e)
  child := by rw [hn]; exact h.child
  par := by rw [hn]; exact h.par

namespace Graph
variable {g : Graph}

theorem insertNode_mv (h : MV g.view) (n : NodeId) (l : LayerId) (st : Option Stamp) (a : Option NodeAttrs) :
    MV (g.insertNode (some (n, l, st, a))).1.view := by
  unfold insertNode
  dsimp only
  split
  · exact h
  rename_i hn
  have hn : g.lookup.find? n = none := by
    simp only [OMap.contains] at hn
    cases e : g.lookup.find? n <;> simp_all
  split
  · exact h
  rename_i x hx
  have hb : g.layerAt? (.static l) = some (.static x) := by simp [layerAt?, hx]
  have hnone : x.nodes.find? n = none := by
    cases e : x.nodes.find? n with
    | none => rfl
    | some y =>
      have : g.view.node (.static l) n = some y := by rw [view_node_of_layerAt? hb]; exact e
      have := (h.key n (.static l)).2 (by simp [this])
      have h2 : g.view.lookup n = none := hn
      rw [h2] at this; cases this
  unfold Layer.insertNode
  dsimp only
  split
  · rw [if_neg (by simp)]
    rw [show ({ g with layers := g.layers.insert l x } : Graph) = g by rw [OMap.insert_of_find? hx]]
    exact h
  split
  · rename_i hh; rw [Layer.hasNode, OMap.contains, hnone] at hh; cases hh
  rw [if_pos rfl]
  generalize hy : ({ id := n, layer := l, timestamp := st, attrs := a } : Node) = y
  have hyp : y.parents = ∅ ∧ y.children = ∅ := by rw [← hy]; exact ⟨rfl, rfl⟩
  generalize hL : ({ x with status := x.status.insert n .new, nodes := x.nodes.insert n y } : Layer) = L
  have hv : ({ g with layers := g.layers.insert l L, lookup := g.lookup.insert n (.static l) } : Graph).view =
      { g.view.setL (.static l) (.static L) with lookup := (g.lookup.insert n (.static l)).find? } := by
    rw [show ({ g with layers := g.layers.insert l L, lookup := g.lookup.insert n (.static l) } : Graph) =
      { g.setLayer (.static l) (.static L) with lookup := g.lookup.insert n (.static l) } from rfl, view_lookup,
      view_setLayer (k := .static l) (b := .static _) trivial]
  have hnd : ∀ m, (BaseLayer.static L).nd m = if n = m then some y else x.nodes.find? m := by
    intro m; rw [← hL]; simp only [BaseLayer.nd, OMap.find?_insert]
  have hb' := MV.blive h hb
  refine h.add (k := .static l) (n := n) (x := y) hn ?_ ?_ ?_ ?_ ?_ hyp.1 hyp.2 (by intro e; cases e)
  · intro m; rw [hv]; simp only [OMap.find?_insert]; rfl
  · intro k m
    rw [hv]
    simp only [View.setL, hnd]
    by_cases e : LayerKey.static l = k
    · subst e; by_cases e' : n = m <;> simp [e']
      rw [view_node_of_layerAt? hb]; rfl
    · simp [e]
  · intro k m
    rw [hv]
    simp only [View.setL]
    by_cases e : LayerKey.static l = k
    · subst e
      simp only [if_true, hnd]
      rw [← hL]
      simp only [BaseLayer.nst, OMap.find?_insert]
      by_cases e' : n = m
      · simp [e', NodeStatus.live]
      · simp only [e', if_false]; exact hb' m
    · simp only [e, if_false]; exact h.live k m
  · intro l' p' m hm
    rw [hv] at hm
    simp [View.setL] at hm
    exact h.info l' p' m hm
  · rw [hv]
    funext c
    simp only [View.setL]
    by_cases e : c = .within (.static l)
    · subst e; simp [view_ec_of_layerAt? hb]; rw [← hL]; rfl
    · simp [e]

theorem setNodeAttributes_sat (h : MV g.view) (n : NodeId) (a : Option NodeAttrs) : Sat (fun r => MV r.1.view) (g.setNodeAttributes n a) := by
  unfold setNodeAttributes
  cases hn : g.lookup.find? n with
  | none => exact h
  | some k =>
    refine (mod_sat h.mw hn _).bind ?_
    rintro g' ⟨y, hy, v⟩
    show MV g'.view
    rw [v]
    exact h.setN hy rfl rfl rfl (fun _ _ h => h)

theorem findEdge_sat (h : MV g.view) (s t : NodeId) : Sat (fun r => MV r.1.view) (g.findEdge s t) := by
  unfold findEdge
  refine Sat.at? (fun ks hs => Sat.at? (fun kt ht => ?_))
  exact (findEdgeIn_sat h hs).mono (fun _ h => h.1)

theorem removeEdge_sat' (h : MV g.view) (s t : NodeId) :
    Sat (fun r => MV r.1.view ∧ ∀ m, r.1.lookup.find? m = g.lookup.find? m) (g.removeEdge s t) := by
  unfold removeEdge
  refine (hasEdgeKeys_sat h s t).bind ?_
  rintro ⟨has, ks, kt⟩ hk
  simp only
  split
  · exact ⟨h, fun _ => rfl⟩
  split
  · exact ⟨h, fun _ => rfl⟩
  rename_i _ hv
  have hk : g.lookup.find? s = some ks ∧ g.lookup.find? t = some kt := by
    rcases hk with hk | hk
    · cases hk; exact (hv (by decide)).elim
    · exact hk
  split
  · rename_i e; subst e
    obtain ⟨b, hb⟩ := layerAt?_of_key h hk.1
    rw [layerFromKey_eq hb]
    exact (removeIn_sat h hb s t).bind (fun r hr => ⟨hr.2.1, fun m => by simp⟩)
  · rename_i e
    exact (removeInter_sat h hk.1 hk.2 e).bind (fun r hr => ⟨hr.1, hr.2.1⟩)

theorem dropAllParents_sat (h : MV g.view) {s t : NodeId} {ks kt : LayerKey} (hs : g.lookup.find? s = some ks)
    (ht : g.lookup.find? t = some kt) :
    Sat (fun g' => MV g'.view ∧ ∀ m, g'.lookup.find? m = g.lookup.find? m) (g.dropAllParents s t ks kt) := by
  unfold dropAllParents
  refine (ptr_sat h.mw hs).bind ?_
  rintro _ ⟨x, hx, rfl⟩
  refine (ptr_sat h.mw ht).bind ?_
  rintro _ ⟨y, hy, rfl⟩
  have : ∃ z, (if ks.isParent kt then some y else some x) = some z := by split <;> exact ⟨_, rfl⟩
  obtain ⟨z, hz⟩ := this
  simp only [hz, Res.deref_some, Res.bind_ok]
  refine Sat.fold (P := fun g' : Graph => MV g'.view ∧ ∀ m, g'.lookup.find? m = g.lookup.find? m) ?_ _ ⟨h, fun _ => rfl⟩
  rintro g1 q ⟨h1, h2⟩
  exact (removeEdge_sat' h1 _ _).bind (fun r hr => ⟨hr.1, fun m => (hr.2 m).trans (h2 m)⟩)

/-- Two records of one layer learn about each other. -/
theorem addAncestry_same_sat (h : MV g.view) {s t : NodeId} {k : LayerKey} (hs : g.lookup.find? s = some k) (ht : g.lookup.find? t = some k) :
    Sat (fun g' => MV g'.view) (g.addAncestry s t k k) := by
  unfold Graph.addAncestry
  refine (ptr_sat h.mw hs).bind (fun _ _ => (ptr_sat h.mw ht).bind (fun _ _ => ?_))
  have hk : k.isParent k = false := by simp [LayerKey.isParent, lt_irrefl_layer k]
  simp only [hk, Bool.false_eq_true, if_false]
  refine (mod_sat h.mw hs _).bind ?_
  rintro g1 ⟨x, hx, v1⟩
  have h1 : MV g1.view := by
    rw [v1]; exact h.setN hx rfl rfl rfl (fun b _ hb => by simp [hb])
  have ht1 : g1.lookup.find? t = some k := by rw [lookup_of_view v1]; exact ht
  refine (mod_sat h1.mw ht1 _).mono ?_
  rintro g2 ⟨y, hy, v2⟩
  rw [v2]; exact h1.setN hy rfl rfl rfl (fun b _ hb => by simp [hb])

theorem insertInterlayer_mv (h : MV g.view) (s t : NodeId) (ks kt : LayerKey) (a : Option EdgeAttrs) :
    MV (g.insertInterlayer s t ks kt a).view := by
  unfold insertInterlayer
  split
  · rw [view_dynInter]; exact h.setE _ _ (by intro k' a b e'; cases e')
  · rw [view_inter]; exact h.setE _ _ (by intro k' a b e'; cases e')

theorem addAncestry_sat' (h : MV g.view) {s t : NodeId} {ks kt : LayerKey} (hs : g.lookup.find? s = some ks) (ht : g.lookup.find? t = some kt) :
    Sat (fun g' => MV g'.view) (g.addAncestry s t ks kt) := by
  by_cases e : ks = kt
  · subst e; exact addAncestry_same_sat h hs ht
  · have hne : s ≠ t := by rintro rfl; rw [hs] at ht; exact e (Option.some.inj ht)
    refine (addAncestry_sat h.mw hs ht hne).mono ?_
    rintro g' ⟨x, y, hx, hy, v⟩
    rw [v]; exact h.link hx hy e

theorem insertParentEdge_sat (h : MV g.view) (s t : NodeId) (i : Option EdgeAttrs) : Sat (fun r => MV r.1.view) (g.insertParentEdge s t i) := by
  unfold insertParentEdge
  refine (hasEdgeKeys_sat h s t).bind ?_
  rintro ⟨has, ks, kt⟩ hk
  simp only
  split
  · exact h
  split
  · exact h
  rename_i _ hv
  have hk : g.lookup.find? s = some ks ∧ g.lookup.find? t = some kt := by
    rcases hk with hk | hk
    · cases hk; exact (hv (by decide)).elim
    · exact hk
  split
  · refine (dropAllParents_sat h hk.1 hk.2).bind ?_
    rintro g1 ⟨h1, h2⟩
    refine (addAncestry_sat' h1 ((h2 s).trans hk.1) ((h2 t).trans hk.2)).bind ?_
    intro g2 h3
    exact insertInterlayer_mv h3 ..
  · refine (addAncestry_sat' h hk.1 hk.2).bind ?_
    intro g2 h3
    exact insertInterlayer_mv h3 ..

theorem createDynamicLayer_mv (h : MV g.view) (l : LayerId) (p : Prefix) : MV (g.createDynamicLayer l p).1.view := by
  unfold createDynamicLayer
  split
  · exact h
  · rename_i hd
    refine createDyn_mv h ?_
    simp only [hasDynLayer] at hd
    cases e : g.dynLayer? l p <;> simp_all

/-! ## The change logs -/

/-- A visitor over layers that only rewrites statuses. -/
theorem visitStatus_mv {α : Type} (h : MV g.view) {F : BaseLayer → BaseLayer × List α} (hk : Graph.KeepsKind F)
    (h1 : ∀ b n, NodeStatus.live ((F b).1.nst n) = NodeStatus.live (b.nst n))
    (h2 : ∀ b, (∀ n, (F b).1.nd n = b.nd n) ∧ (F b).1.ec = b.ec ∧ (F b).1.info.pre = b.info.pre ∧ (F b).1.info.top = b.info.top) :
    MV (g.visitLayers F).1.view := by
  have hl := g.layerAt?_visit hk
  refine h.congr rfl ?_ ?_ ?_ ?_
  · funext k n
    simp only [Graph.view, hl]
    cases g.layerAt? k with
    | none => rfl
    | some b => exact (h2 b).1 n
  · intro k n
    simp only [Graph.view, hl]
    cases g.layerAt? k with
    | none => rfl
    | some b => exact h1 b n
  · intro l p m hm
    simp only [Graph.view, hl] at hm
    cases hb : g.layerAt? (.dyn l p) with
    | none => rw [hb] at hm; cases hm
    | some b =>
      rw [hb] at hm; cases hm
      obtain ⟨i1, i2⟩ := h.info l p b.info (by simp [view, hb])
      exact ⟨(h2 b).2.2.1.trans i1, (h2 b).2.2.2 ▸ i2⟩
  · intro k a b e
    simp only [Graph.view, Graph.ecAt?, hl] at e ⊢
    cases hb : g.layerAt? k with
    | none => rw [hb] at e; exact e
    | some c => rw [hb] at e; simp only [Option.map_some, Option.getD_some] at e ⊢; rw [(h2 c).2.1] at e; exact e

theorem getNewNodes_mv (h : MV g.view) (c : Bool) : MV (g.getNewNodes c).1.view := by
  refine visitStatus_mv h (Graph.keeps_getNew c) ?_ (fun b => ?_)
  · intro b n
    rw [b.nst_getNew c n]
    cases b.nst n with
    | none => rfl
    | some s => cases c <;> cases s <;> rfl
  · obtain ⟨a1, a2, a3⟩ := b.getNew_rest c
    exact ⟨a1, a2, a3.2.1, a3.2.2.2.1⟩

theorem getRemovedNodes_mv (h : MV g.view) (c : Bool) : MV (g.getRemovedNodes c).1.view := by
  refine visitStatus_mv h (Graph.keeps_getRemoved c) ?_ (fun b => ?_)
  · intro b n
    rw [b.nst_getRemoved c n]
    cases b.nst n with
    | none => rfl
    | some s => cases c <;> cases s <;> rfl
  · obtain ⟨a1, a2, a3⟩ := b.getRemoved_rest c
    exact ⟨a1, a2, a3.2.1, a3.2.2.2.1⟩

theorem getNewEdges_mv (h : MV g.view) (c : Bool) : MV (g.getNewEdges c).1.view := by
  rw [Graph.getNewEdges_eq, g.visitEdges_view (fun e => e.getNew c) (by cases c <;> rfl)]
  exact h.congr rfl rfl (fun _ _ => rfl) h.info (fun _ _ _ e => e)

theorem getRemovedEdges_mv (h : MV g.view) (c : Bool) : MV (g.getRemovedEdges c).1.view := by
  rw [Graph.getRemovedEdges_eq, g.visitEdges_view (fun e => e.getRemoved c) (by cases c <;> rfl)]
  exact h.congr rfl rfl (fun _ _ => rfl) h.info (fun _ _ _ e => e)

/-! ## Appending to a dynamic layer -/

/-- The state of a dynamic layer after a node has been pushed and before the edge to its predecessor. -/
theorem push_mv (h : MV g.view) {l : LayerId} {p : Prefix} {d : DynLayer} (hd : g.dynLayer? l p = some d)
    (hn : g.lookup.find? (p.makeId d.nodes.length) = none) (hlt : d.nodes.length < 2 ^ 32) (x : Node) (hp : x.parents = ∅) (hc : x.children = ∅)
    (ht : x.timestamp.isSome = true) (T : OSet Stamp) :
    MV ({ g.setDyn l p { d with times := T, nodes := d.nodes ++ [some x], status := d.status.insert d.nodes.length .new } with
      lookup := g.lookup.insert (p.makeId d.nodes.length) (.dyn l p) } : Graph).view := by
  have hb : g.layerAt? (.dyn l p) = some (.dyn d) := by simp [layerAt?, hd]
  obtain ⟨hpre, -⟩ := h.info l p (BaseLayer.info (.dyn d)) (by simp [view, hb])
  have hpre : d.pre = p := hpre
  have hl := MV.blive h hb
  generalize hN : d.nodes.length = N at *
  have hm : p.isMatch (p.makeId N) = true := Prefix.isMatch_makeId _ hlt
  have hidx : p.index (p.makeId N) = N := Prefix.index_makeId _ _ hlt
  generalize hd1 : ({ d with times := T, nodes := d.nodes ++ [some x], status := d.status.insert N .new } : DynLayer) = d1
  have hv : ({ g.setDyn l p d1 with lookup := g.lookup.insert (p.makeId N) (.dyn l p) } : Graph).view =
      { g.view.setL (.dyn l p) (.dyn d1) with lookup := (g.lookup.insert (p.makeId N) (.dyn l p)).find? } := by
    rw [view_lookup, show g.setDyn l p d1 = g.setLayer (.dyn l p) (.dyn d1) from rfl, view_setLayer (k := .dyn l p) (b := .dyn d1) trivial]
  have hpre1 : d1.pre = p := by rw [← hd1]; exact hpre
  have hnew : ∀ m, p.isMatch m = true → p.index m = N → m = p.makeId N := by
    intro m hm' e
    exact Prefix.eq_of_index hm' hm (e.trans hidx.symm)
  have hnd : ∀ m, (BaseLayer.dyn d1).nd m = if p.makeId N = m then some x else (BaseLayer.dyn d).nd m := by
    intro m
    simp only [BaseLayer.nd, hpre1, hpre]
    rw [← hd1]
    by_cases e : p.makeId N = m
    · subst e; rw [if_pos rfl, if_pos hm, hidx, ← hN]; simp
    · simp only [e, if_false]
      by_cases hm' : p.isMatch m = true
      · have : p.index m ≠ N := fun e' => e (hnew m hm' e').symm
        simp only [hm', if_true]
        rcases Nat.lt_or_ge (p.index m) d.nodes.length with q | q
        · rw [List.getElem?_append_left q]
        · rw [List.getElem?_eq_none (l := d.nodes) q, List.getElem?_eq_none (by simp; omega)]
      · simp [hm']
  refine h.add (k := .dyn l p) (n := p.makeId N) (x := x) hn ?_ ?_ ?_ ?_ ?_ hp hc (fun _ => ht)
  · intro m; rw [hv]; simp only [OMap.find?_insert]; rfl
  · intro k m
    rw [hv]
    simp only [View.setL]
    by_cases e : LayerKey.dyn l p = k
    · subst e
      simp only [if_true, hnd, true_and]
      by_cases e' : p.makeId N = m
      · simp [e']
      · simp only [e', if_false]; rw [view_node_of_layerAt? hb]
    · simp [e]
  · intro k m
    rw [hv]
    simp only [View.setL]
    by_cases e : LayerKey.dyn l p = k
    · subst e
      simp only [if_true, hnd]
      simp only [BaseLayer.nst, hpre1]
      rw [← hd1]
      by_cases e' : p.makeId N = m
      · subst e'; simp [hm, hidx, NodeStatus.live]
      · simp only [e', if_false, OMap.find?_insert]
        have := hl m
        simp only [BaseLayer.nst, hpre] at this
        rw [← this]
        by_cases hm' : p.isMatch m = true
        · have : N ≠ p.index m := fun e'' => e' (hnew m hm' e''.symm).symm
          simp [hm', this]
        · simp [hm']
    · simp only [e, if_false]; exact h.live k m
  · intro l' p' m hm'
    rw [hv] at hm'
    simp only [View.setL] at hm'
    split at hm'
    · rename_i e; cases e
      cases hm'
      refine ⟨hpre1, ?_⟩
      rw [← hd1]
      simp only [BaseLayer.info, List.length_append, List.length_cons, List.length_nil, hN]; omega
    · exact h.info l' p' m hm'
  · rw [hv]
    funext c
    simp only [View.setL]
    by_cases e : c = .within (.dyn l p)
    · subst e
      simp only [if_true, view_ec_of_layerAt? hb, BaseLayer.ec]
      rw [← hd1]
    · simp [e]

/-- `dynamic emplaceNode` on a layer whose next index is its number of slots. -/
theorem append_sat (h : MV g.view) {l : LayerId} {p : Prefix} {d : DynLayer} (hd : g.dynLayer? l p = some d)
    (hn : g.lookup.find? (p.makeId d.next) = none) (hs : d.next = d.nodes.length) (hlt : d.nodes.length < 2 ^ 32) (t : Stamp)
    (a : Option NodeAttrs) (link : Bool) :
    Sat (fun r : DynLayer × Bool => if r.2 then MV ({ g.setDyn l p r.1 with lookup := g.lookup.insert (p.makeId d.next) (.dyn l p) } : Graph).view
      else MV (g.setDyn l p r.1).view) (d.emplaceNode t a link) := by
  have hb : g.layerAt? (.dyn l p) = some (.dyn d) := by simp [layerAt?, hd]
  obtain ⟨hpre, -⟩ := h.info l p (BaseLayer.info (.dyn d)) (by simp [view, hb])
  have hpre : d.pre = p := hpre
  unfold DynLayer.emplaceNode
  split
  · show MV (g.setLayer (.dyn l p) (.dyn d)).view
    rw [setLayer_self hb]; exact h
  have hp := push_mv h hd (by rw [← hs]; exact hn) hlt { id := d.pre.makeId d.next, layer := d.id, timestamp := some t, attrs := a } rfl rfl rfl
    (d.times.add t)
  simp only [List.length_append, List.length_cons, List.length_nil, Nat.zero_add, Nat.add_sub_cancel]
  generalize hd1 : ({ d with times := d.times.add t, nodes := d.nodes ++ [some { id := d.pre.makeId d.next, layer := d.id, timestamp := some t, attrs := a }]
                             status := d.status.insert d.nodes.length .new } : DynLayer) = d1 at *
  -- the counter is invisible
  have bump : ∀ d2 : DynLayer, MV ({ g.setDyn l p d2 with lookup := g.lookup.insert (p.makeId d.next) (.dyn l p) } : Graph).view →
      MV ({ g.setDyn l p { d2 with next := d2.next + 1 } with lookup := g.lookup.insert (p.makeId d.next) (.dyn l p) } : Graph).view := by
    intro d2 h2
    have hv : ∀ d3 : DynLayer, ({ g.setDyn l p d3 with lookup := g.lookup.insert (p.makeId d.next) (.dyn l p) } : Graph).view =
        { g.view.setL (.dyn l p) (.dyn d3) with lookup := (g.lookup.insert (p.makeId d.next) (.dyn l p)).find? } := by
      intro d3
      rw [view_lookup, show g.setDyn l p d3 = g.setLayer (.dyn l p) (.dyn d3) from rfl, view_setLayer (k := .dyn l p) (b := .dyn d3) trivial]
    rw [hv] at h2 ⊢
    refine h2.congr rfl rfl (fun _ _ => rfl) ?_ (fun _ _ _ e => e)
    intro l' p' m hm
    simp only [View.setL] at hm
    split at hm
    · rename_i e; cases e; cases hm
      exact h2.info l p (BaseLayer.info (.dyn d2)) (by simp [View.setL])
    · rename_i e
      exact h2.info l' p' m (by simp [View.setL, e]; exact hm)
  rw [← hs] at hp
  split
  · -- the edge to the predecessor
    generalize hg1 : ({ g.setDyn l p d1 with lookup := g.lookup.insert (p.makeId d.next) (.dyn l p) } : Graph) = g1 at hp
    have hb1 : g1.layerAt? (.dyn l p) = some (.dyn d1) := by
      rw [← hg1]
      show ((g.setDyn l p d1).dynLayer? l p).map BaseLayer.dyn = _
      rw [dynLayer?_setDyn]; simp
    have hi := insertIn_sat hp hb1 (d1.pre.makeId (d1.nodes.length - 2)) (d1.pre.makeId (d1.nodes.length - 1)) none
    have hlen : d1.nodes.length = d.nodes.length + 1 := by rw [← hd1]; simp
    have e1 : d1.nodes.length - 2 = d.nodes.length + 1 - 2 := by rw [hlen]
    have e2 : d1.nodes.length - 1 = d.nodes.length := by rw [hlen]; rfl
    rw [e1, e2] at hi
    have hq : d1.pre = d.pre := by rw [← hd1]
    rw [hq] at hi
    simp only [BaseLayer.insertEdge] at hi
    revert hi
    cases hq : d1.insertEdge (d.pre.makeId (d.nodes.length + 1 - 2)) (d.pre.makeId d.nodes.length) none with
    | ub => exact fun hi => hi
    | throw e => exact fun _ => trivial
    | ok r =>
      rintro ⟨-, m1, -, -⟩
      have : MV ({ g.setDyn l p r.1 with lookup := g.lookup.insert (p.makeId d.next) (.dyn l p) } : Graph).view := by
        rw [show ({ g.setDyn l p r.1 with lookup := g.lookup.insert (p.makeId d.next) (.dyn l p) } : Graph) =
          g1.setLayer (.dyn l p) (.dyn r.1) from ?_]
        · exact m1
        · rw [← hg1]
          have := setLayer_setLayer (g := g) (k := .dyn l p) (b := .dyn d1) (b' := .dyn r.1) trivial trivial
          simp only [setLayer] at this ⊢
          rw [← this]; rfl
      exact bump _ this
  · exact bump _ hp

/-- Dynamic `emplaceNode`. -/
theorem emplaceDyn_sat (h : MV g.view) (l : LayerId) (p : Prefix) (t : Stamp) (a : Option NodeAttrs) (link : Bool)
    (hs : ∀ d, g.dynLayer? l p = some d → d.next = d.nodes.length ∧ d.nodes.length < 2 ^ 32) :
    Sat (fun r => MV r.1.view) (g.emplaceDyn l p t a link) := by
  unfold emplaceDyn
  dsimp only
  split
  · exact h
  rename_i hn
  have hn : g.lookup.find? (g.nextDynId l p) = none := by
    simp only [hasNode, OMap.contains] at hn
    cases e : g.lookup.find? (g.nextDynId l p) <;> simp_all
  have key : ∀ (g1 : Graph) (d : DynLayer), MV g1.view → g1.lookup = g.lookup → g1.dynLayer? l p = some d → p.makeId d.next = g.nextDynId l p →
      d.next = d.nodes.length → d.nodes.length < 2 ^ 32 →
      Sat (fun r : Graph × Bool => MV r.1.view) (do
        let d ← Res.deref (g1.dynLayer? l p)
        let (d, ok) ← d.emplaceNode t a link
        let g1 := g1.setDyn l p d
        if !ok then return (g1, false)
        else return ({ g1 with lookup := g1.lookup.insert (g.nextDynId l p) (.dyn l p) }, true)) := by
    intro g1 d h1 hl hd hid h2 h3
    simp only [hd, Res.deref_some, Res.bind_ok]
    refine (append_sat h1 hd (by rw [hl, hid]; exact hn) h2 h3 t a link).bind ?_
    rintro ⟨d', ok⟩ hr
    cases ok with
    | false => exact hr
    | true => rw [hid] at hr; exact hr
  split
  · rename_i hd
    obtain ⟨d, hd⟩ := Option.isSome_iff_exists.1 hd
    exact key g d h rfl hd (by simp [nextDynId, hd]) (hs d hd).1 (hs d hd).2
  · rename_i hd
    have hd' : g.dynLayer? l p = none := by
      simp only [hasDynLayer] at hd
      cases e : g.dynLayer? l p <;> simp_all
    have hc : (g.createDynamicLayer l p).1 = g.setDyn l p { id := l, pre := p } := by
      simp only [createDynamicLayer, hd, Bool.false_eq_true, if_false]
    rw [hc]
    exact key _ { id := l, pre := p } (createDyn_mv h hd') rfl (by rw [dynLayer?_setDyn]; simp) (by simp [nextDynId, hd']) rfl (by simp)

end Graph
end Verif
