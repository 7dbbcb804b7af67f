import Verif.Lemmas.Mem2
import Verif.Refine.RemoveNode
/-!
# No undefined behaviour: adding, updating and removing nodes
-/

namespace Verif
open Res (Sat)
namespace Graph
variable {g : Graph}

/-! ## Adding -/

theorem addStatic_mv (h : MV g.view) {l : LayerId} {x : Layer} (hx : g.layers.find? l = some x) {n : NodeId} (hn : g.lookup.find? n = none)
    (a : Option NodeAttrs) :
    (x.emplaceNode n a).2 = true ∧
    MV ({ g with layers := g.layers.insert l (x.emplaceNode n a).1, lookup := g.lookup.insert n (.static l) } : Graph).view := by
  have hb : g.layerAt? (.static l) = some (.static x) := by simp [layerAt?, hx]
  have hnone : x.nodes.find? n = none := by
    cases e : x.nodes.find? n with
    | none => rfl
    | some y =>
      have : g.view.node (.static l) n = some y := by rw [view_node_of_layerAt? hb]; exact e
      have := (h.key n (.static l)).2 (by simp [this])
      have h2 : g.view.lookup n = none := hn
      rw [h2] at this; cases this
  have hv : ({ g with layers := g.layers.insert l (x.emplaceNode n a).1, lookup := g.lookup.insert n (.static l) } : Graph).view =
      { g.view.setL (.static l) (.static (x.emplaceNode n a).1) with lookup := (g.lookup.insert n (.static l)).find? } := by
    rw [show ({ g with layers := g.layers.insert l (x.emplaceNode n a).1, lookup := g.lookup.insert n (.static l) } : Graph) =
      { g.setLayer (.static l) (.static (x.emplaceNode n a).1) with lookup := g.lookup.insert n (.static l) } from rfl, view_lookup,
      view_setLayer (k := .static l) (b := .static _) trivial]
  have hnd : ∀ m, (BaseLayer.static (x.emplaceNode n a).1).nd m = if n = m then some { id := n, layer := x.id, attrs := a } else x.nodes.find? m := by
    intro m
    simp only [BaseLayer.nd, Layer.emplaceNode, OMap.find?_emplace, hnone]
    by_cases e : n = m <;> simp [e]
  have hl := MV.blive h hb
  refine ⟨by simp [Layer.emplaceNode, OMap.contains, hnone], ?_⟩
  refine h.add (k := .static l) (n := n) (x := { id := n, layer := x.id, attrs := a }) hn ?_ ?_ ?_ ?_ ?_ rfl rfl (by intro e; cases e)
  · intro m; rw [hv]; simp only [OMap.find?_insert]; rfl
  · intro k m
    rw [hv]
    simp only [View.setL, hnd]
    by_cases e : LayerKey.static l = k
    · subst e; by_cases e' : n = m <;> simp [e']
      rw [view_node_of_layerAt? hb]; rfl
    · simp [e]
  · intro k m
    rw [hv]
    simp only [View.setL]
    by_cases e : LayerKey.static l = k
    · subst e
      simp only [if_true, hnd]
      simp only [BaseLayer.nst, Layer.emplaceNode, OMap.find?_insert]
      by_cases e' : n = m
      · simp [e', NodeStatus.live]
      · simp only [e', if_false]; exact hl m
    · simp only [e, if_false]; exact h.live k m
  · intro l' p' m hm
    rw [hv] at hm
    simp [View.setL] at hm
    exact h.info l' p' m hm
  · rw [hv]
    funext c
    simp only [View.setL]
    by_cases e : c = .within (.static l)
    · subst e; simp [view_ec_of_layerAt? hb]; rfl
    · simp [e]

/-- A new, empty dynamic layer. -/
theorem createDyn_mv (h : MV g.view) {l : LayerId} {p : Prefix} (hd : g.dynLayer? l p = none) : MV (g.setDyn l p { id := l, pre := p }).view := by
  have hb : g.layerAt? (.dyn l p) = none := by simp [layerAt?, hd]
  have hv : (g.setDyn l p { id := l, pre := p }).view = g.view.setL (.dyn l p) (.dyn { id := l, pre := p }) :=
    Graph.view_setLayer (g := g) (k := .dyn l p) (b := .dyn { id := l, pre := p }) trivial
  rw [hv]
  have h1 : ∀ n, g.view.node (.dyn l p) n = none := by intro n; simp [Graph.view, hb]
  have h2 : ∀ n, g.view.st (.dyn l p) n = none := by intro n; simp [Graph.view, hb]
  have h3 : g.view.ec (.within (.dyn l p)) = {} := by simp [Graph.view, Graph.ecAt?, hb]
  have hnode : (g.view.setL (.dyn l p) (.dyn { id := l, pre := p })).node = g.view.node := by
    funext k n
    simp only [View.setL]
    by_cases e : LayerKey.dyn l p = k
    · subst e; simp [h1, BaseLayer.nd]
    · simp [e]
  have hst : (g.view.setL (.dyn l p) (.dyn { id := l, pre := p })).st = g.view.st := by
    funext k n
    simp only [View.setL]
    by_cases e : LayerKey.dyn l p = k
    · subst e; simp [h2, BaseLayer.nst]
    · simp [e]
  have hec : (g.view.setL (.dyn l p) (.dyn { id := l, pre := p })).ec = g.view.ec := by
    funext c
    simp only [View.setL]
    by_cases e : c = .within (.dyn l p)
    · subst e; simp [h3, BaseLayer.ec]
    · simp [e]
  constructor
  · rw [hnode]; exact h.key
  · rw [hnode, hst]; exact h.live
  · intro l' p' m hm
    simp only [View.setL] at hm
    split at hm
    · rename_i e; cases e; cases hm; exact ⟨rfl, by simp [BaseLayer.info]⟩
    · exact h.info l' p' m hm
  · rw [hnode]; exact h.stamp
  · rw [hnode, hec]; exact h.edge
  · rw [hnode]; exact h.child
  · rw [hnode]; exact h.par

theorem Prefix.isMatch_fromId (n : NodeId) : (Prefix.fromId n).isMatch n = true := by
  simp [Prefix.isMatch, Prefix.fromId]

/-- Storing a node in a dynamic layer. -/
theorem addDyn_mv (h : MV g.view) {l : LayerId} {n : NodeId} {d : DynLayer} (hd : g.dynLayer? l (Prefix.fromId n) = some d)
    (hn : g.lookup.find? n = none) (t : Stamp) (a : Option NodeAttrs) :
    (d.emplaceNodeAtIndex t ((Prefix.fromId n).index n) a).2 = true ∧
    MV ({ g.setDyn l (Prefix.fromId n) (d.emplaceNodeAtIndex t ((Prefix.fromId n).index n) a).1 with
      lookup := g.lookup.insert n (.dyn l (Prefix.fromId n)) } : Graph).view := by
  generalize hp : Prefix.fromId n = p at *
  have hm : p.isMatch n = true := by rw [← hp]; exact Prefix.isMatch_fromId n
  have hb : g.layerAt? (.dyn l p) = some (.dyn d) := by simp [layerAt?, hd]
  obtain ⟨hpre, htop⟩ := h.info l p (BaseLayer.info (.dyn d)) (by simp [view, hb])
  have hpre : d.pre = p := hpre
  have htop : d.nodes.length ≤ 2 ^ 32 := htop
  have hl := MV.blive h hb
  have hlt : p.index n < 2 ^ 32 := Prefix.index_lt _ _
  have hnone : (BaseLayer.dyn d).nd n = none := by
    cases e : (BaseLayer.dyn d).nd n with
    | none => rfl
    | some y =>
      have : g.view.node (.dyn l p) n = some y := by rw [view_node_of_layerAt? hb]; exact e
      have := (h.key n (.dyn l p)).2 (by simp [this])
      have h2 : g.view.lookup n = none := hn
      rw [h2] at this; cases this
  have hidx : ∀ m, d.pre.index m = p.index m := fun _ => rfl
  have hhas : d.hasNodeByIndex (p.index n) = false := by
    have h1 := BaseLayer.hasNode_eq hl n
    rw [hnone] at h1
    simp only [BaseLayer.hasNode, DynLayer.hasNode, hpre, hm] at h1
    simpa using h1
  -- the padded layer
  generalize hd0 : (if p.index n ≥ d.nodes.length then d.pad (p.index n - d.nodes.length + 1) else d) = d0
  have hstep : d.emplaceNodeAtIndex t (p.index n) a = ({ d0 with
      times := d0.times.add t
      nodes := d0.nodes.set (p.index n) (some { id := d0.pre.makeId (p.index n), layer := d0.id, timestamp := some t, attrs := a })
      status := d0.status.insert (p.index n) .new }, true) := by
    simp only [DynLayer.emplaceNodeAtIndex, hhas, Bool.false_eq_true, if_false, hd0]
  obtain ⟨q1, q2, q3, q4, q5⟩ : d0.pre = d.pre ∧ d0.edges = d.edges ∧ p.index n < d0.nodes.length ∧ d0.nodes.length ≤ 2 ^ 32 ∧
      ∀ j, ((d0.nodes[j]?).join = (d.nodes[j]?).join) ∧ NodeStatus.live (d0.status.find? j) = (if d.nodes.length < j ∧ j ≤ p.index n + 1 then false else NodeStatus.live (d.status.find? j)) := by
    by_cases e : p.index n ≥ d.nodes.length
    · rw [if_pos e] at hd0
      obtain ⟨a1, a2, a3, a4, a5, a6, a7⟩ := d.pad_spec (p.index n - d.nodes.length + 1)
      rw [hd0] at a1 a2 a3 a4 a5 a6 a7
      refine ⟨a3, a6, by rw [a1]; simp; omega, by rw [a1]; simp; omega, ?_⟩
      intro j
      refine ⟨?_, ?_⟩
      · rw [a1]
        by_cases ej : j < d.nodes.length
        · rw [List.getElem?_append_left ej]
        · rw [List.getElem?_append_right (by omega), List.getElem?_eq_none (l := d.nodes) (by omega), List.getElem?_replicate]
          split <;> rfl
      · rw [a7]
        by_cases ej : d.nodes.length < j ∧ j ≤ p.index n + 1
        · rw [if_pos (by omega), if_pos ej]; rfl
        · rw [if_neg (by omega), if_neg ej]
    · rw [if_neg e] at hd0; subst hd0
      refine ⟨rfl, rfl, by omega, htop, ?_⟩
      intro j; refine ⟨rfl, ?_⟩
      rw [if_neg (by omega)]
  have hlive0 : ∀ m, p.isMatch m = true → NodeStatus.live (d.status.find? (p.index m)) = ((d.nodes[p.index m]?).join).isSome := by
    intro m hm'
    have := hl m
    simpa [BaseLayer.nst, BaseLayer.nd, hpre, hm'] using this
  rw [hstep]
  refine ⟨rfl, ?_⟩
  generalize hd1 : ({ d0 with
      times := d0.times.add t
      nodes := d0.nodes.set (p.index n) (some { id := d0.pre.makeId (p.index n), layer := d0.id, timestamp := some t, attrs := a })
      status := d0.status.insert (p.index n) .new } : DynLayer) = d1
  generalize hx : ({ id := d0.pre.makeId (p.index n), layer := d0.id, timestamp := some t, attrs := a } : Node) = x at *
  have hv : ({ g.setDyn l p d1 with lookup := g.lookup.insert n (.dyn l p) } : Graph).view =
      { g.view.setL (.dyn l p) (.dyn d1) with lookup := (g.lookup.insert n (.dyn l p)).find? } := by
    rw [view_lookup, show g.setDyn l p d1 = g.setLayer (.dyn l p) (.dyn d1) from rfl, view_setLayer (k := .dyn l p) (b := .dyn d1) trivial]
  have hpre1 : d1.pre = p := by rw [← hd1]; exact q1.trans hpre
  have hnd : ∀ m, (BaseLayer.dyn d1).nd m = if n = m then some x else (BaseLayer.dyn d).nd m := by
    intro m
    simp only [BaseLayer.nd, hpre1, hpre]
    rw [← hd1]
    by_cases e : n = m
    · subst e; simp [hm, q3]
    · simp only [e, if_false]
      by_cases hm' : p.isMatch m = true
      · have : p.index n ≠ p.index m := fun e' => e (Prefix.eq_of_index hm hm' e')
        simp only [hm', if_true, List.getElem?_set_ne this]
        exact (q5 _).1
      · simp [hm']
  have hst1 : ∀ m, NodeStatus.live ((BaseLayer.dyn d1).nst m) = ((BaseLayer.dyn d1).nd m).isSome := by
    intro m
    rw [hnd]
    simp only [BaseLayer.nst, hpre1]
    rw [← hd1]
    by_cases hm' : p.isMatch m = true
    · simp only [hm', if_true, OMap.find?_insert]
      by_cases e : n = m
      · subst e; simp [NodeStatus.live]
      · have : p.index n ≠ p.index m := fun e' => e (Prefix.eq_of_index hm hm' e')
        simp only [this, e, if_false]
        rw [(q5 _).2]
        simp only [BaseLayer.nd, hpre, hm', if_true]
        rw [← hlive0 m hm']
        split
        · rename_i e'
          rw [hlive0 m hm', List.getElem?_eq_none (by omega)]; rfl
        · rfl
    · have e : n ≠ m := by rintro rfl; exact hm' hm
      simp [hm', e, BaseLayer.nd, hpre, NodeStatus.live]
  refine h.add (k := .dyn l p) (n := n) (x := x) hn ?_ ?_ ?_ ?_ ?_ (by rw [← hx]) (by rw [← hx]) (by intro _; rw [← hx]; rfl)
  · intro m; rw [hv]; simp only [OMap.find?_insert]; rfl
  · intro k m
    rw [hv]
    simp only [View.setL]
    by_cases e : LayerKey.dyn l p = k
    · subst e
      simp only [if_true, hnd, true_and]
      by_cases e' : n = m
      · simp [e']
      · simp only [e', if_false]; rw [view_node_of_layerAt? hb]
    · simp [e]
  · intro k m
    rw [hv]
    simp only [View.setL]
    by_cases e : LayerKey.dyn l p = k
    · subst e
      simp only [if_true]; exact hst1 m
    · simp only [e, if_false]; exact h.live k m
  · intro l' p' m hm'
    rw [hv] at hm'
    simp only [View.setL] at hm'
    split at hm'
    · rename_i e; cases e
      cases hm'
      refine ⟨hpre1, ?_⟩
      rw [← hd1]
      simp only [BaseLayer.info, List.length_set]; exact q4
    · exact h.info l' p' m hm'
  · rw [hv]
    funext c
    simp only [View.setL]
    by_cases e : c = .within (.dyn l p)
    · subst e
      simp only [if_true, view_ec_of_layerAt? hb, BaseLayer.ec]
      rw [← hd1]; exact q2
    · simp [e]

theorem emplacePrev_sat (h : MV g.view) (l : LayerId) (n : NodeId) (t : Stamp) (a : Option NodeAttrs) :
    Sat (fun r => MV r.1.view) (g.emplacePrev l n t a) := by
  unfold emplacePrev
  split
  · exact h
  rename_i hn
  have hn : g.lookup.find? n = none := by
    simp only [hasNode, OMap.contains] at hn
    cases e : g.lookup.find? n <;> simp_all
  have key : ∀ g1 : Graph, MV g1.view → g1.lookup = g.lookup → (g1.dynLayer? l (Prefix.fromId n)).isSome = true →
      Sat (fun r : Graph × Bool => MV r.1.view) (do
        let d ← Res.deref (g1.dynLayer? l (Prefix.fromId n))
        let r := d.emplaceNodeAtIndex t ((Prefix.fromId n).index n) a
        let g := g1.setDyn l (Prefix.fromId n) r.1
        if !r.2 then return (g, false)
        else return ({ g with lookup := g.lookup.insert n (.dyn l (Prefix.fromId n)) }, true)) := by
    intro g1 h1 hl hd
    obtain ⟨d, hd⟩ := Option.isSome_iff_exists.1 hd
    have hn1 : g1.lookup.find? n = none := by rw [hl]; exact hn
    obtain ⟨e1, e2⟩ := addDyn_mv h1 hd hn1 t a
    rw [hd]
    simp only [Res.deref_some, Res.bind_ok, e1, Bool.not_true, Bool.false_eq_true, if_false]
    exact e2
  simp only
  split
  · rename_i hd
    exact key g h rfl hd
  · rename_i hd
    have hd' : g.dynLayer? l (Prefix.fromId n) = none := by
      simp only [hasDynLayer] at hd
      cases e : g.dynLayer? l (Prefix.fromId n) <;> simp_all
    have hc : (g.createDynamicLayer l (Prefix.fromId n)).1 = g.setDyn l (Prefix.fromId n) { id := l, pre := Prefix.fromId n } := by
      simp only [createDynamicLayer, hd, Bool.false_eq_true, if_false]
    rw [hc]
    refine key _ (createDyn_mv h hd') rfl ?_
    rw [dynLayer?_setDyn]; simp

theorem addOrUpdateNode_sat (h : MV g.view) (l : LayerId) (n : NodeId) (a : Option NodeAttrs) (st : Option Stamp) :
    Sat (fun r => MV r.1.view) (g.addOrUpdateNode l n a st) := by
  unfold addOrUpdateNode
  cases hx : g.layers.find? l with
  | none => exact h
  | some x =>
    simp only
    cases hn : g.lookup.find? n with
    | some k =>
      refine (mod_sat h.mw hn _).bind ?_
      rintro g' ⟨y, hy, v⟩
      show MV g'.view
      rw [v]
      exact h.setN hy rfl rfl rfl (fun _ _ h => h)
    | none =>
      cases st with
      | some t => exact emplacePrev_sat h l n t a
      | none =>
        obtain ⟨e1, e2⟩ := addStatic_mv h hx hn a
        simp only [e1, if_true]
        exact e2

/-! ## Removing -/

/-- While `removeNode n` detaches the relatives of `n`. -/
structure Near (g0 : Graph) (k : LayerKey) (n : NodeId) (x0 : Node) (g : Graph) : Prop where
  mv : MV g.view
  look : ∀ m, g.lookup.find? m = g0.lookup.find? m
  node : ∃ x, g.view.node k n = some x ∧ (∀ u, x.children.contains u = true → x0.children.contains u = true) ∧
    (∀ u, x.parents.contains u = true → x0.parents.contains u = true)

theorem unlink_sub (x : Node) (k k' : LayerKey) (t u : NodeId) :
    ((x.unlink k k' t).children.contains u = true → x.children.contains u = true) ∧
    ((x.unlink k k' t).parents.contains u = true → x.parents.contains u = true) := by
  rcases layer_cases k'.layer k.layer with ⟨h1, h2, h3⟩ | ⟨h1, h2, h3⟩ | ⟨h1, h2, h3⟩
  · rw [Node.unlink_lt h1]; simp [OMap.contains_erase]
  · rw [Node.unlink_gt h1 h2]; simp [OMap.contains_erase]
  · rw [Node.unlink_eq h3 h2]; simp

theorem detach_sat {g0 : Graph} {k : LayerKey} {n : NodeId} {x0 : Node} (h0 : MV g0.view) (hn : g0.lookup.find? n = some k)
    (L : List NodeId) (C : Node → OSet NodeId) (hC : C = Node.children ∧ (∀ t ∈ L, x0.children.contains t = true) ∨ C = Node.parents ∧ (∀ t ∈ L, x0.parents.contains t = true))
    (hx0 : g0.view.node k n = some x0) :
    Sat (fun g => Near g0 k n x0 g ∧ (∀ t ∈ L, ∀ x, g.view.node k n = some x → (C x).contains t = false))
      (foldRes (fun g t => g.removeInterlayerEdge' n t) g0 L) := by
  refine (Sat.fold_done (P := Near g0 k n x0) (D := fun t (g : Graph) => ∀ x, g.view.node k n = some x → (C x).contains t = false) L ?_
    ⟨h0, fun _ => rfl, x0, hx0, fun _ h => h, fun _ h => h⟩).mono (fun g hg => ⟨hg.1, hg.2.1⟩)
  intro g t ht hg
  obtain ⟨x, hx, c1, c2⟩ := hg.node
  have hk : ∃ k', g0.lookup.find? t = some k' ∧ ((k'.layer < k.layer ∧ C = Node.children) ∨ (k.layer < k'.layer ∧ C = Node.parents)) := by
    rcases hC with ⟨e, hC⟩ | ⟨e, hC⟩
    · obtain ⟨k', y, e1, -, e3⟩ := h0.child k n x0 t hx0 (hC t ht)
      exact ⟨k', (h0.key t k').2 (by simp [e1]), .inl ⟨e3, e⟩⟩
    · obtain ⟨k', y, e1, -, e3⟩ := h0.par k n x0 t hx0 (hC t ht)
      exact ⟨k', (h0.key t k').2 (by simp [e1]), .inr ⟨e3, e⟩⟩
  obtain ⟨k', hk', hlay⟩ := hk
  have hne : k ≠ k' := by
    rintro rfl
    rcases hlay with ⟨h, -⟩ | ⟨h, -⟩ <;> exact lt_irrefl_layer k h
  have a1 : g.lookup.find? n = some k := (hg.look n).trans hn
  have a2 : g.lookup.find? t = some k' := (hg.look t).trans hk'
  simp only [removeInterlayerEdge', a1, a2, Res.at?_some, Res.bind_ok]
  refine (removeInter_sat hg.mv a1 a2 hne).mono ?_
  rintro g' ⟨m1, m2, x', hx', m3⟩
  rw [hx] at hx'; cases hx'
  refine ⟨⟨m1, fun m => (m2 m).trans (hg.look m), _, m3, ?_, ?_⟩, ?_, ?_⟩
  · intro u hu; exact c1 u ((unlink_sub x k k' t u).1 hu)
  · intro u hu; exact c2 u ((unlink_sub x k k' t u).2 hu)
  · intro y hy
    rw [m3] at hy; cases hy
    rcases hlay with ⟨h1, rfl⟩ | ⟨h1, rfl⟩
    · rw [Node.unlink_lt h1]; simp [OMap.contains_erase]
    · rw [Node.unlink_gt h1 (by rcases layer_cases k.layer k'.layer with ⟨_, h, _⟩ | ⟨_, h, _⟩ | ⟨h, _, _⟩ <;> first | exact h | exact absurd h1 h | (rw [h] at h1; simp at h1))]
      simp [OMap.contains_erase]
  · intro u hu y hy
    rw [m3] at hy; cases hy
    have := hu x hx
    cases e : (C (x.unlink k k' t)).contains u with
    | false => rfl
    | true =>
      rcases hC with ⟨rfl, -⟩ | ⟨rfl, -⟩
      · rw [(unlink_sub x k k' t u).1 e] at this; cases this
      · rw [(unlink_sub x k k' t u).2 e] at this; cases this

/-- The loop over the siblings of `n` inside one layer. -/
theorem dropWithin_sat (h : MV g.view) {k : LayerKey} {b : BaseLayer} (hb : g.layerAt? k = some b) (n : NodeId) (L : List NodeId) :
    Sat (fun b' => b'.fits k ∧ MV (g.setLayer k b').view ∧
      (∀ n x, b.nd n = some x → ∃ x', b'.nd n = some x' ∧ x'.parents = x.parents ∧ x'.children = x.children) ∧
      (∀ t ∈ L, b'.ec.contains n t = false) ∧ ∀ a c, b'.ec.contains a c = true → b.ec.contains a c = true)
      (foldRes (fun b t => b.removeEdge n t >>= fun r => .ok r.1) b L) := by
  refine (Sat.fold_done (P := fun b' : BaseLayer => b'.fits k ∧ MV (g.setLayer k b').view ∧
      (∀ n x, b.nd n = some x → ∃ x', b'.nd n = some x' ∧ x'.parents = x.parents ∧ x'.children = x.children) ∧
      ∀ a c, b'.ec.contains a c = true → b.ec.contains a c = true) (D := fun t b' => b'.ec.contains n t = false) L ?_ ?_).mono ?_
  · rintro b1 t ht ⟨f1, m1, n1, e1⟩
    have hb1 : (g.setLayer k b1).layerAt? k = some b1 := by rw [layerAt?_setLayer' f1]; simp
    refine (removeIn_sat m1 hb1 n t).bind ?_
    rintro ⟨b2, ok⟩ ⟨f2, m2, n2, q2, e2⟩
    refine ⟨⟨f2, by rw [setLayer_setLayer f1 f2] at m2; exact m2, ?_, fun a c hc => e1 a c (e2 a c hc)⟩, q2, ?_⟩
    · intro n x hx
      obtain ⟨x1, g1, g2, g3⟩ := n1 n x hx
      obtain ⟨x2, g4, g5, g6⟩ := n2 n x1 g1
      exact ⟨x2, g4, g5.trans g2, g6.trans g3⟩
    · intro u hu
      cases e : b2.ec.contains n u with
      | false => rfl
      | true => rw [e2 _ _ e] at hu; cases hu
  · exact ⟨fits_of_layerAt? hb, by rw [setLayer_self hb]; exact h, fun n x hx => ⟨x, hx, rfl, rfl⟩, fun _ _ h => h⟩
  · rintro b' ⟨⟨a1, a2, a3, a4⟩, a5, -⟩
    exact ⟨a1, a2, a3, a5, a4⟩

/-- Erasing the record of a node without relatives. -/
theorem delIn_mv (h : MV g.view) {k : LayerKey} {b b' : BaseLayer} (hb : g.layerAt? k = some b) (hf : b'.fits k) {n : NodeId} {x : Node}
    (hx : b.nd n = some x) (hp : ∀ t, x.parents.contains t = false) (hc : ∀ t, x.children.contains t = false)
    (he : ∀ c, b.ec.contains n c = false) (hnd : ∀ m, b'.nd m = if n = m then none else b.nd m)
    {z : NodeStatus} (hst : ∀ m, b'.nst m = if n = m then some z else b.nst m) (hec : b'.ec = b.ec)
    (hinfo : b'.info.pre = b.info.pre ∧ b'.info.top = b.info.top) (hz : NodeStatus.live (some z) = false := by rfl) :
    MV ({ g.setLayer k b' with lookup := (g.setLayer k b').lookup.erase n } : Graph).view := by
  have hv : ({ g.setLayer k b' with lookup := (g.setLayer k b').lookup.erase n } : Graph).view =
      { g.view.setL k b' with lookup := (g.lookup.erase n).find? } := by
    rw [view_lookup, view_setLayer hf, lookup_setLayer]
  have vx : g.view.node k n = some x := by rw [view_node_of_layerAt? hb]; exact hx
  refine h.del (k := k) (n := n) (x := x) vx ?_ ?_ ?_ ?_ ?_ hp hc ?_
  · intro m; rw [hv]; simp only [OMap.find?_erase]; rfl
  · intro k' m
    rw [hv]
    simp only [View.setL]
    by_cases e : k = k'
    · subst e; simp only [if_true, hnd, true_and]; rw [view_node_of_layerAt? hb]
    · simp [e]
  · intro k' m
    rw [hv]
    simp only [View.setL]
    by_cases e : k = k'
    · subst e
      simp only [if_true, hnd, hst]
      by_cases e' : n = m
      · simp [e', hz]
      · simp only [e', if_false]; exact MV.blive h hb m
    · simp only [e, if_false]; exact h.live k' m
  · intro l p m hm
    rw [hv] at hm
    simp only [View.setL] at hm
    split at hm
    · rename_i e; subst e
      cases hm
      obtain ⟨i1, i2⟩ := h.info l p b.info (by simp [view, hb])
      exact ⟨hinfo.1.trans i1, by rw [hinfo.2]; exact i2⟩
    · exact h.info l p m hm
  · rw [hv]
    funext c
    simp only [View.setL]
    by_cases e : c = .within k
    · subst e; simp [view_ec_of_layerAt? hb, hec]
    · simp [e]
  · intro c; rw [view_ec_of_layerAt? hb]; exact he c

/-- The layer-level `removeNode` of a node without parents and children. -/
theorem layerRemove_sat (h : MV g.view) {k : LayerKey} {b : BaseLayer} (hb : g.layerAt? k = some b) {n : NodeId} {x : Node}
    (hx : b.nd n = some x) (hp : ∀ t, x.parents.contains t = false) (hc : ∀ t, x.children.contains t = false) :
    Sat (fun r => MV ({ g.setLayer k r.1 with lookup := (g.setLayer k r.1).lookup.erase n } : Graph).view) (b.removeNode n) := by
  have hsib : ∀ c, b.ec.contains n c = true → x.siblings.contains c = true := by
    intro c hcc
    rw [← view_ec_of_layerAt? hb] at hcc
    obtain ⟨-, x', -, h1, -, h2, -⟩ := h.edge k n c hcc
    rw [view_node_of_layerAt? hb, hx] at h1; cases h1; exact h2
  have hl := MV.blive h hb
  -- what remains after the loop
  have fin : ∀ b1 b2 : BaseLayer, b1.fits k → MV (g.setLayer k b1).view → b1.nd n = some x → (∀ c, b1.ec.contains n c = b.ec.contains n c) →
      (b2.fits k ∧ MV (g.setLayer k b2).view ∧
      (∀ n x, b1.nd n = some x → ∃ x', b2.nd n = some x' ∧ x'.parents = x.parents ∧ x'.children = x.children) ∧
      (∀ t ∈ x.siblings.keys, b2.ec.contains n t = false) ∧ ∀ a c, b2.ec.contains a c = true → b1.ec.contains a c = true) →
      ∃ x2, b2.nd n = some x2 ∧ ∀ b3 : BaseLayer, b3.fits k → (∀ m, b3.nd m = if n = m then none else b2.nd m) →
        (∀ m, b3.nst m = if n = m then some .deleted else b2.nst m) → b3.ec = b2.ec →
        (b3.info.pre = b2.info.pre ∧ b3.info.top = b2.info.top) →
        MV ({ g.setLayer k b3 with lookup := (g.setLayer k b3).lookup.erase n } : Graph).view := by
    rintro b1 b2 f1 m1 x1 e1 ⟨f2, m2, n2, d2, s2⟩
    obtain ⟨x2, g1, g2, g3⟩ := n2 n x x1
    refine ⟨x2, g1, ?_⟩
    intro b3 f3 t1 t2 t3 t4
    have hb2 : (g.setLayer k b2).layerAt? k = some b2 := by rw [layerAt?_setLayer' f2]; simp
    have := delIn_mv m2 hb2 f3 g1 (by rw [g2]; exact hp) (by rw [g3]; exact hc) (by
      intro c
      cases e : b2.ec.contains n c with
      | false => rfl
      | true =>
        have q := s2 _ _ e
        rw [e1] at q
        rw [d2 c (OMap.mem_keys.2 (hsib c q))] at e; cases e) t1 t2 t3 t4
    rw [setLayer_setLayer f2 f3] at this
    exact this
  cases b with
  | static l =>
    have hx' : l.nodes.find? n = some x := hx
    simp only [BaseLayer.removeNode, Layer.removeNode, hx']
    have hd := dropWithin_sat h hb n x.siblings.keys
    rw [fold_static] at hd
    revert hd
    cases foldRes (fun l t => (l.removeEdge n t) >>= fun r => .ok r.1) l x.siblings.keys with
    | ub => exact fun hd => hd
    | throw e => exact fun _ => trivial
    | ok l2 =>
      intro hd
      have hd' : _ := hd
      obtain ⟨x2, -, fin⟩ := fin (.static l) (.static l2) (fits_of_layerAt? hb) (by rw [setLayer_self hb]; exact h) hx (fun _ => rfl) hd'
      refine fin (.static { l2 with nodes := l2.nodes.erase n, status := l2.status.insert n .deleted }) ((fits_static _ _ _).1 hd'.1) ?_ ?_ rfl ⟨rfl, rfl⟩
      · intro m; simp only [BaseLayer.nd, OMap.find?_erase]
      · intro m; simp only [BaseLayer.nst, OMap.find?_insert]
  | dyn d =>
    obtain ⟨hm, hslot⟩ := BaseLayer.nd_dyn_lt hx
    have hhas : d.hasNode n = true := by
      have h1 := BaseLayer.hasNode_eq hl n
      simp only [BaseLayer.hasNode] at h1
      rw [h1, hx]; rfl
    simp only [BaseLayer.removeNode, DynLayer.removeNode, hhas, Bool.not_true, Bool.false_eq_true, if_false, hslot, Res.at?_some,
      Res.deref_some, Res.bind_ok]
    have rest : ∀ d1 : DynLayer, BaseLayer.fits (.dyn d1) k → MV (g.setLayer k (.dyn d1)).view → (BaseLayer.dyn d1).nd n = some x →
        (∀ c, d1.edges.contains n c = d.edges.contains n c) → d1.pre = d.pre →
        Sat (fun r : BaseLayer × Bool => MV ({ g.setLayer k r.1 with lookup := (g.setLayer k r.1).lookup.erase n } : Graph).view)
        ((foldRes (fun l t => (l.removeEdge n t) >>= fun r => Res.ok r.1) d1 x.siblings.keys >>= fun l =>
          Res.at? ({ l with status := l.status.insert (d.pre.index n) .deleted } : DynLayer).nodes[d.pre.index n]? >>= fun p =>
          Res.deref p >>= fun x => Res.deref x.timestamp >>= fun st =>
            (pure ({ l with status := l.status.insert (d.pre.index n) .deleted, times := l.times.erase st, nodes := l.nodes.set (d.pre.index n) none }, true) : Res (DynLayer × Bool)))
          >>= fun r => Res.ok (BaseLayer.dyn r.1, r.2)) := by
      intro d1 f1 m1 x1 e1 p1
      have hb1 : (g.setLayer k (.dyn d1)).layerAt? k = some (.dyn d1) := by rw [layerAt?_setLayer' f1]; simp
      have hd := dropWithin_sat m1 hb1 n x.siblings.keys
      rw [fold_dyn] at hd
      revert hd
      cases foldRes (fun l t => (l.removeEdge n t) >>= fun r => .ok r.1) d1 x.siblings.keys with
      | ub => exact fun hd => hd
      | throw e => exact fun _ => trivial
      | ok d2 =>
        rintro ⟨f2, m2, n2, q2, s2⟩
        rw [setLayer_setLayer f1 f2] at m2
        obtain ⟨x2, g1, fin⟩ := fin (.dyn d1) (.dyn d2) f1 m1 x1 e1 ⟨f2, m2, n2, q2, s2⟩
        obtain ⟨hm2, hslot2⟩ := BaseLayer.nd_dyn_lt g1
        have hidx : d2.pre.index n = d.pre.index n := rfl
        rw [hidx] at hslot2
        -- the prefix is the key's
        obtain ⟨l', p', rfl⟩ : ∃ l' p', k = .dyn l' p' := by
          cases k with
          | static l' => exact absurd f2 (by intro h; exact h)
          | dyn l' p' => exact ⟨l', p', rfl⟩
        have hb2 : (g.setLayer (.dyn l' p') (.dyn d2)).layerAt? (.dyn l' p') = some (.dyn d2) := by rw [layerAt?_setLayer' f2]; simp
        have hst := m2.stamp l' p' n x2 (by rw [view_node_of_layerAt? hb2]; exact g1)
        obtain ⟨st, hst⟩ := Option.isSome_iff_exists.1 hst
        simp only [Res.bind_ok, hslot2, Res.at?_some, Res.deref_some, hst, Res.pure_eq]
        refine fin (.dyn _) trivial ?_ ?_ rfl ⟨rfl, by simp [BaseLayer.info]⟩
        · intro m
          have hlt : d.pre.index n < d2.nodes.length := by
            rcases Nat.lt_or_ge (d.pre.index n) d2.nodes.length with h' | h'
            · exact h'
            · rw [List.getElem?_eq_none h'] at hslot2; cases hslot2
          simp only [BaseLayer.nd]
          by_cases e : n = m
          · subst e
            have : (d2.nodes.set (d.pre.index n) none)[d2.pre.index n]? = some none := by rw [hidx]; simp [hlt]
            simp [this]
          · simp only [e, if_false]
            by_cases hm' : d2.pre.isMatch m = true
            · have : d.pre.index n ≠ d2.pre.index m := fun e' => e (Prefix.eq_of_index hm2 hm' e')
              simp [hm', List.getElem?_set_ne this]
            · simp [hm']
        · intro m
          simp only [BaseLayer.nst, OMap.find?_insert]
          by_cases e : n = m
          · subst e; simp [hm2, hidx]
          · simp only [e, if_false]
            by_cases hm' : d2.pre.isMatch m = true
            · have : d.pre.index n ≠ d2.pre.index m := fun e' => e (Prefix.eq_of_index hm2 hm' e')
              simp [hm', this]
            · simp [hm']
    split
    · have hi := insertIn_sat h hb (n - 1) (n + 1) none
      simp only [BaseLayer.insertEdge] at hi
      revert hi
      cases hq : d.insertEdge (n - 1) (n + 1) none with
      | ub => exact fun hd => hd
      | throw e => exact fun _ => trivial
      | ok r =>
        intro hi
        obtain ⟨f1, m1, n1, e1⟩ := hi
        have hpre : r.1.pre = d.pre := by
          have hk : ∃ l' p', k = .dyn l' p' := by
            cases k with
            | static l' => exact absurd f1 (by intro h; exact h)
            | dyn l' p' => exact ⟨l', p', rfl⟩
          obtain ⟨l', p', rfl⟩ := hk
          have hb1 : (g.setLayer (.dyn l' p') (.dyn r.1)).layerAt? (.dyn l' p') = some (.dyn r.1) := by rw [layerAt?_setLayer' f1]; simp
          have i1 := (m1.info l' p' (BaseLayer.info (.dyn r.1)) (by simp [view, hb1])).1
          have i2 := (h.info l' p' (BaseLayer.info (.dyn d)) (by simp [view, hb])).1
          exact i1.trans i2.symm
        have hx1 : (BaseLayer.dyn r.1).nd n = some x := by
          rw [show (BaseLayer.dyn r.1).nd n = _ from n1 n (NodeId.pred_ne n).symm (NodeId.succ_ne n).symm]; exact hx
        exact rest r.1 f1 m1 hx1 (fun c => e1 n c (NodeId.pred_ne n).symm (NodeId.succ_ne n).symm) hpre
    · exact rest d (fits_of_layerAt? hb) (by rw [setLayer_self hb]; exact h) hx (fun _ => rfl) rfl

theorem removeNode_sat (h : MV g.view) (n : NodeId) : Sat (fun r => MV r.1.view) (g.removeNode n) := by
  unfold removeNode
  cases hn : g.lookup.find? n with
  | none => exact h
  | some k =>
    simp only
    refine (ptr_sat h.mw hn).bind ?_
    rintro _ ⟨x, hx, rfl⟩
    simp only [Res.deref_some, Res.bind_ok]
    refine (detach_sat h hn x.children.keys Node.children (.inl ⟨rfl, fun t ht => OMap.mem_keys.1 ht⟩) hx).bind ?_
    rintro g1 ⟨N1, D1⟩
    have hn1 : g1.lookup.find? n = some k := (N1.look n).trans hn
    refine (ptr_sat N1.mv.mw hn1).bind ?_
    rintro _ ⟨x1, hx1, rfl⟩
    simp only [Res.deref_some, Res.bind_ok]
    refine (detach_sat N1.mv hn1 x1.parents.keys Node.parents (.inr ⟨rfl, fun t ht => OMap.mem_keys.1 ht⟩) hx1).bind ?_
    rintro g2 ⟨N2, D2⟩
    obtain ⟨x2, hx2, c2, p2⟩ := N2.node
    obtain ⟨x1', hx1', c1, p1⟩ := N1.node
    rw [hx1] at hx1'; cases hx1'
    obtain ⟨b, hb, hbn⟩ := layerAt?_of_view_node hx2
    rw [layerFromKey_eq hb]
    simp only [Res.bind_ok]
    refine (layerRemove_sat N2.mv hb hbn ?_ ?_).bind (fun r hr => hr)
    · intro t
      cases e : x2.parents.contains t with
      | false => rfl
      | true => rw [← e, D2 t (OMap.mem_keys.2 (p2 t e)) x2 hx2]
    · intro t
      cases e : x2.children.contains t with
      | false => rfl
      | true =>
        have e' := c2 t e
        rw [D1 t (OMap.mem_keys.2 (c1 t e')) x1 hx1] at e'; cases e'

end Graph
end Verif
