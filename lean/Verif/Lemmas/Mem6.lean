import Verif.Lemmas.Mem5
import Verif.Refine.Refused
/-!
# No undefined behaviour: merging nodes
-/

namespace Verif
open Res (Sat)

/-- No stored edge has a null attribute pointer. -/
def EdgeContainer.Full (c : EdgeContainer) : Prop := ∀ key e, c.edges.find? key = some e → e.info.isSome = true

namespace EdgeContainer.Full
variable {c : EdgeContainer}
theorem find (h : c.Full) (s t : NodeId) : (c.find s t).1.Full := by
  intro key e he
  refine h key e ?_
  rw [← he]
  simp only [EdgeContainer.find, EdgeContainer.findKey]
  cases c.edges.find? (EdgeKey.of s t) <;> rfl
theorem drop (h : c.Full) (k : EdgeKey) : (c.drop k).Full := by
  intro key e he
  simp only [EdgeContainer.drop, OMap.find?_erase] at he
  split at he
  · cases he
  · exact h key e he
theorem insert (h : c.Full) (s t : NodeId) (i : Option EdgeAttrs) : (c.insert s t i).Full := by
  intro key e he
  simp only [EdgeContainer.insert, OMap.find?_emplace] at he
  split at he
  · cases hq : c.edges.find? (EdgeKey.of s t) with
    | none => rw [hq] at he; cases he; rfl
    | some e' => rw [hq] at he; cases he; exact h _ _ hq
  · exact h key e he
theorem remove (h : c.Full) {s t : NodeId} {c' : EdgeContainer} (e : c.remove s t = .ok c') : c'.Full := by
  simp only [EdgeContainer.remove] at e
  cases hq : c.status.find? (EdgeKey.of s t) with
  | none => simp [hq] at e
  | some z =>
    simp only [hq, Res.at?_some, Res.bind_ok, Res.pure_eq, Res.ok.injEq] at e
    subst e
    exact h.drop (EdgeKey.of s t)
theorem found (h : c.Full) {s t : NodeId} {e : Edge} (he : (c.find s t).2 = some e) : ∃ a, e.info = some a := by
  refine Option.isSome_iff_exists.1 (h (EdgeKey.of s t) e ?_)
  simp only [EdgeContainer.find, EdgeContainer.findKey] at he
  cases hq : c.edges.find? (EdgeKey.of s t) <;> simp [hq] at he
  rw [he]
end EdgeContainer.Full

/-- No stored edge has a null attribute pointer. -/
def View.Full (v : View) : Prop := ∀ c, (v.ec c).Full

theorem View.Full.setE {v : View} (h : v.Full) (c : Place) {e : EdgeContainer} (he : e.Full) : (v.setE c e).Full := by
  intro c'
  simp only [View.setE]
  split
  · exact he
  · exact h c'

theorem EdgeContainer.contains_remove {c c' : EdgeContainer} {s t : NodeId} (e : c.remove s t = .ok c') : c' = c.drop (EdgeKey.of s t) := by
  simp only [EdgeContainer.remove] at e
  cases hq : c.status.find? (EdgeKey.of s t) with
  | none => simp [hq] at e
  | some z =>
    simp only [hq, Res.at?_some, Res.bind_ok, Res.pure_eq, Res.ok.injEq] at e
    exact e.symm

theorem EdgeContainer.remove_ne_ub (c : EdgeContainer) (s t : NodeId) : c.remove s t ≠ .ub := by
  intro e
  simp only [EdgeContainer.remove] at e
  cases hq : c.status.find? (EdgeKey.of s t) <;> simp [hq] at e

namespace Graph
variable {g : Graph}

/-! ## Interlayer edges -/

theorem removeInter_full (h : MV g.view) (hF : g.view.Full) {s t : NodeId} {ks kt : LayerKey} (hs : g.lookup.find? s = some ks)
    (ht : g.lookup.find? t = some kt) (e : ks ≠ kt) :
    Sat (fun g' => MV g'.view ∧ g'.view.Full ∧ (∀ m, g'.lookup.find? m = g.lookup.find? m) ∧
      ∃ x, g.view.node ks s = some x ∧ g'.view.node ks s = some (x.unlink ks kt t)) (g.removeInterlayerEdge s t ks kt) := by
  have hne : s ≠ t := by rintro rfl; rw [hs] at ht; exact e (Option.some.inj ht)
  unfold removeInterlayerEdge
  refine (removeAncestry_sat h.mw hs ht hne).bind ?_
  rintro g' ⟨x, y, hx, hy, v⟩
  have h1 : MV g'.view := by rw [v]; exact h.unlink hx hy e
  have hF1 : g'.view.Full := by rw [v]; exact hF
  have h2 : ∀ m, g'.lookup.find? m = g.lookup.find? m := by intro m; rw [lookup_of_view v]; rfl
  have h3 : g'.view.node ks s = some (x.unlink ks kt t) := by rw [v]; simp [View.setN, Ne.symm hne]
  split
  · cases hr : g'.dynInter.remove s t with
    | ok c =>
      refine ⟨?_, ?_, h2, x, hx, ?_⟩
      · rw [view_dynInter]; exact h1.setE _ _ (by intro k' a b e'; cases e')
      · rw [view_dynInter]; exact hF1.setE _ (EdgeContainer.Full.remove (hF1 (.across true)) hr)
      · rw [view_dynInter]; exact h3
    | throw e => trivial
    | ub => exact (EdgeContainer.remove_ne_ub _ _ _ hr).elim
  · cases hr : g'.inter.remove s t with
    | ok c =>
      refine ⟨?_, ?_, h2, x, hx, ?_⟩
      · rw [view_inter]; exact h1.setE _ _ (by intro k' a b e'; cases e')
      · rw [view_inter]; exact hF1.setE _ (EdgeContainer.Full.remove (hF1 (.across false)) hr)
      · rw [view_inter]; exact h3
    | throw e => trivial
    | ub => exact (EdgeContainer.remove_ne_ub _ _ _ hr).elim

theorem rewireInter_sat (h : MV g.view) (hF : g.view.Full) {f t u : NodeId} {k ku : LayerKey} (hf : g.lookup.find? f = some k)
    (ht : g.lookup.find? t = some k) (hu : g.lookup.find? u = some ku) (hne : k ≠ ku) (hft : f ≠ t) :
    Sat (fun g' => MV g'.view ∧ g'.view.Full ∧ (∀ m, g'.lookup.find? m = g.lookup.find? m) ∧
      ∃ x, g.view.node k f = some x ∧ g'.view.node k f = some (x.unlink k ku u)) (g.rewireInterlayerEdge f t u) := by
  have hfu : f ≠ u := by rintro rfl; rw [hf] at hu; exact hne (Option.some.inj hu)
  have htu : t ≠ u := by rintro rfl; rw [ht] at hu; exact hne (Option.some.inj hu)
  unfold rewireInterlayerEdge
  rw [if_neg hft]
  have hk : ∃ b, g.hasEdgeKeys t u = .ok (b, k, ku) := by
    simp only [hasEdgeKeys, ht, hu, if_neg hne]
    split <;> exact ⟨_, rfl⟩
  obtain ⟨b, hk⟩ := hk
  simp only [hf, Res.at?_some, Res.bind_ok, hk]
  cases b with
  | true => exact removeInter_full h hF hf hu hne
  | false =>
    simp only [Bool.false_eq_true, if_false]
    refine (removeAncestry_sat h.mw hf hu hfu).bind ?_
    rintro g1 ⟨x, y, hx, hy, v1⟩
    have h1 : MV g1.view := by rw [v1]; exact h.unlink hx hy hne
    have hF1 : g1.view.Full := by rw [v1]; exact hF
    have l1 : ∀ m, g1.lookup.find? m = g.lookup.find? m := by intro m; rw [lookup_of_view v1]; rfl
    have x1 : g1.view.node k f = some (x.unlink k ku u) := by rw [v1]; simp [View.setN, Ne.symm hfu]
    refine (addAncestry_sat h1.mw ((l1 t).trans ht) ((l1 u).trans hu) htu).bind ?_
    rintro g2 ⟨x', y', hx', hy', v2⟩
    have h2 : MV g2.view := by rw [v2]; exact h1.link hx' hy' hne
    have hF2 : g2.view.Full := by rw [v2]; exact hF1
    have l2 : ∀ m, g2.lookup.find? m = g.lookup.find? m := by intro m; rw [lookup_of_view v2]; exact l1 m
    have x2 : g2.view.node k f = some (x.unlink k ku u) := by
      rw [v2]; simp only [View.setN, Ne.symm hfu, Ne.symm hft, and_false, if_false]; exact x1
    -- the container
    have fin : ∀ (g3 : Graph) (c : Place) (e : EdgeContainer), (∀ k', c ≠ .within k') → e.Full → g3.view = g2.view.setE c e →
        MV g3.view ∧ g3.view.Full ∧ (∀ m, g3.lookup.find? m = g.lookup.find? m) ∧ g3.view.node k f = some (x.unlink k ku u) := by
      intro g3 c e hc he v3
      refine ⟨?_, ?_, ?_, ?_⟩
      · rw [v3]; exact h2.setE _ _ (by intro k' a b e'; exact (hc k' e').elim)
      · rw [v3]; exact hF2.setE c he
      · intro m; rw [lookup_of_view v3]; exact l2 m
      · rw [v3]; exact x2
    have ins : ∀ (g3 : Graph) (a : EdgeAttrs), (MV g3.view ∧ g3.view.Full ∧ (∀ m, g3.lookup.find? m = g.lookup.find? m) ∧
        g3.view.node k f = some (x.unlink k ku u)) →
        MV (g3.insertInterlayer t u k ku (some a)).view ∧ (g3.insertInterlayer t u k ku (some a)).view.Full ∧
        (∀ m, (g3.insertInterlayer t u k ku (some a)).lookup.find? m = g.lookup.find? m) ∧
        ∃ x, g.view.node k f = some x ∧ (g3.insertInterlayer t u k ku (some a)).view.node k f = some (x.unlink k ku u) := by
      rintro g3 a ⟨q1, q2, q3, q4⟩
      have hv := view_insertInterlayer (g := g3) (s := t) (t := u) (ks := k) (kt := ku) hne (some a)
      refine ⟨insertInterlayer_mv q1 .., ?_, ?_, x, hx, ?_⟩
      · rw [hv]; exact q2.setE _ (EdgeContainer.Full.insert (q2 _) _ _ _)
      · intro m; rw [lookup_of_view hv]; exact q3 m
      · rw [hv]; exact q4
    split
    · cases hr : (g2.dynInter.find f u).2 with
      | none =>
        obtain ⟨q1, q2, q3, q4⟩ := fin _ _ _ (by intro k' e; cases e) ((hF2 (.across true)).find f u) (view_dynInter g2 _)
        exact ⟨q1, q2, q3, x, hx, q4⟩
      | some e =>
        obtain ⟨a, ha⟩ := (hF2 (.across true)).found hr
        simp only [ha, Res.deref_some, Res.bind_ok]
        cases hq : EdgeContainer.remove (g2.dynInter.find f u).1 f u with
        | throw e => trivial
        | ub => exact (EdgeContainer.remove_ne_ub _ _ _ hq).elim
        | ok c => exact ins _ a (fin _ _ c (by intro k' e; cases e) (EdgeContainer.Full.remove ((hF2 (.across true)).find f u) hq) (view_dynInter g2 c))
    · cases hr : (g2.inter.find f u).2 with
      | none =>
        obtain ⟨q1, q2, q3, q4⟩ := fin _ _ _ (by intro k' e; cases e) ((hF2 (.across false)).find f u) (view_inter g2 _)
        exact ⟨q1, q2, q3, x, hx, q4⟩
      | some e =>
        obtain ⟨a, ha⟩ := (hF2 (.across false)).found hr
        simp only [ha, Res.deref_some, Res.bind_ok]
        cases hq : EdgeContainer.remove (g2.inter.find f u).1 f u with
        | throw e => trivial
        | ub => exact (EdgeContainer.remove_ne_ub _ _ _ hq).elim
        | ok c => exact ins _ a (fin _ _ c (by intro k' e; cases e) (EdgeContainer.Full.remove ((hF2 (.across false)).find f u) hq) (view_inter g2 c))

/-- The two loops of `mergeNodes` over parents and children. -/
theorem rewireAll_sat {g0 : Graph} {k : LayerKey} {f t : NodeId} {x0 : Node} (h0 : MV g0.view) (hF0 : g0.view.Full)
    (hf : g0.lookup.find? f = some k) (ht : g0.lookup.find? t = some k) (hft : f ≠ t)
    (L : List NodeId) (C : Node → OSet NodeId) (hC : C = Node.children ∧ (∀ t ∈ L, x0.children.contains t = true) ∨ C = Node.parents ∧ (∀ t ∈ L, x0.parents.contains t = true))
    (hx0 : g0.view.node k f = some x0) :
    Sat (fun g => Near g0 k f x0 g ∧ g.view.Full ∧ (∀ t ∈ L, ∀ x, g.view.node k f = some x → (C x).contains t = false))
      (foldRes (fun g u => g.rewireInterlayerEdge f t u) g0 L) := by
  refine (Sat.fold_done (P := fun g => Near g0 k f x0 g ∧ g.view.Full) (D := fun t (g : Graph) => ∀ x, g.view.node k f = some x → (C x).contains t = false) L ?_
    ⟨⟨h0, fun _ => rfl, x0, hx0, fun _ h => h, fun _ h => h⟩, hF0⟩).mono (fun g hg => ⟨hg.1.1, hg.1.2, hg.2.1⟩)
  rintro g u hu ⟨hg, hF⟩
  obtain ⟨x, hx, c1, c2⟩ := hg.node
  have hk : ∃ k', g0.lookup.find? u = some k' ∧ ((k'.layer < k.layer ∧ C = Node.children) ∨ (k.layer < k'.layer ∧ C = Node.parents)) := by
    rcases hC with ⟨e, hC⟩ | ⟨e, hC⟩
    · obtain ⟨k', y, e1, -, e3⟩ := h0.child k f x0 u hx0 (hC u hu)
      exact ⟨k', (h0.key u k').2 (by simp [e1]), .inl ⟨e3, e⟩⟩
    · obtain ⟨k', y, e1, -, e3⟩ := h0.par k f x0 u hx0 (hC u hu)
      exact ⟨k', (h0.key u k').2 (by simp [e1]), .inr ⟨e3, e⟩⟩
  obtain ⟨k', hk', hlay⟩ := hk
  have hne : k ≠ k' := by
    rintro rfl
    rcases hlay with ⟨h, -⟩ | ⟨h, -⟩ <;> exact lt_irrefl_layer k h
  refine (rewireInter_sat hg.mv hF ((hg.look f).trans hf) ((hg.look t).trans ht) ((hg.look u).trans hk') hne hft).mono ?_
  rintro g' ⟨m1, mF, m2, x', hx', m3⟩
  rw [hx] at hx'; cases hx'
  refine ⟨⟨⟨m1, fun m => (m2 m).trans (hg.look m), _, m3, ?_, ?_⟩, mF⟩, ?_, ?_⟩
  · intro w hw; exact c1 w ((unlink_sub x k k' u w).1 hw)
  · intro w hw; exact c2 w ((unlink_sub x k k' u w).2 hw)
  · intro y hy
    rw [m3] at hy; cases hy
    rcases hlay with ⟨h1, rfl⟩ | ⟨h1, rfl⟩
    · rw [Node.unlink_lt h1]; simp [OMap.contains_erase]
    · rw [Node.unlink_gt h1 (by rcases layer_cases k.layer k'.layer with ⟨_, h, _⟩ | ⟨_, h, _⟩ | ⟨h, _, _⟩ <;> first | exact h | exact absurd h1 h | (rw [h] at h1; simp at h1))]
      simp [OMap.contains_erase]
  · intro w hw y hy
    rw [m3] at hy; cases hy
    have := hw x hx
    cases e : (C (x.unlink k k' u)).contains w with
    | false => rfl
    | true =>
      rcases hC with ⟨rfl, -⟩ | ⟨rfl, -⟩
      · rw [(unlink_sub x k k' u w).1 e] at this; cases this
      · rw [(unlink_sub x k k' u w).2 e] at this; cases this

/-! ## Edges within a static layer -/

theorem _root_.Verif.Layer.removeEdge_edges {l : Layer} {s t : NodeId} {r : Layer × Bool} (e : l.removeEdge s t = .ok r) :
    r.1.edges = l.edges ∨ r.1.edges = l.edges.drop (EdgeKey.of s t) := by
  have hm : ∀ {l l' : Layer} {n : NodeId} {f : Node → Node}, l.modNode n f = .ok l' → l'.edges = l.edges := by
    intro l l' n f hq
    unfold Layer.modNode at hq
    split at hq <;> cases hq
    rfl
  unfold Layer.removeEdge at e
  split at e
  · cases e; exact .inl rfl
  · obtain ⟨l1, e1, e⟩ := bind_eq_ok e
    obtain ⟨l2, e2, e⟩ := bind_eq_ok e
    obtain ⟨c, e3, e⟩ := bind_eq_ok e
    cases e
    right
    show c = _
    rw [EdgeContainer.contains_remove e3, hm e2, hm e1]

theorem rewireIn_sat (h : MV g.view) {lid : LayerId} {l : Layer} (hl : g.layers.find? lid = some l) (hF : l.edges.Full) {f t u : NodeId}
    (hft : f ≠ t) (ht : (l.nodes.find? t).isSome = true) :
    Sat (fun r : Layer × Bool => MV (g.setLayer (.static lid) (.static r.1)).view ∧ r.1.edges.Full ∧
      (∀ n x, l.nodes.find? n = some x → ∃ x', r.1.nodes.find? n = some x' ∧ x'.parents = x.parents ∧ x'.children = x.children) ∧
      r.1.edges.contains f u = false ∧ ∀ c, r.1.edges.contains f c = true → l.edges.contains f c = true) (l.rewireEdge f u t u) := by
  have hb : g.layerAt? (.static lid) = some (.static l) := by simp [layerAt?, hl]
  unfold Layer.rewireEdge
  cases he : l.hasEdge f u with
  | false =>
    refine ⟨?_, hF, fun n x hx => ⟨x, hx, rfl, rfl⟩, he, fun _ h => h⟩
    show MV (g.setLayer (.static lid) (.static l)).view
    rw [setLayer_self hb]; exact h
  | true =>
    have he1 : (g.view.ec (.within (.static lid))).contains f u = true := by rw [view_ec_of_layerAt? hb]; exact he
    obtain ⟨hfu, x, y, vf, vu, -, -⟩ := h.edge _ _ _ he1
    have hf : l.nodes.find? f = some x := by rw [view_node_of_layerAt? hb] at vf; exact vf
    have hu : l.nodes.find? u = some y := by rw [view_node_of_layerAt? hb] at vu; exact vu
    obtain ⟨w, ht⟩ := Option.isSome_iff_exists.1 ht
    have vt : g.view.node (.static lid) t = some w := by rw [view_node_of_layerAt? hb]; exact ht
    have n1 : l.hasNode t = true := by simp [Layer.hasNode, OMap.contains, ht]
    have n2 : l.hasNode u = true := by simp [Layer.hasNode, OMap.contains, hu]
    simp only [n1, n2, hft, Bool.not_true, Bool.or_self, Bool.false_eq_true, if_false, false_and]
    by_cases hc : t = u ∨ l.hasEdge t u = true
    · rw [if_pos hc]
      have := removeIn_sat h hb f u
      simp only [BaseLayer.removeEdge] at this
      revert this
      cases hq : l.removeEdge f u with
      | ub => exact fun h => h
      | throw e => exact fun _ => trivial
      | ok r =>
        rintro ⟨-, q1, q2, q3, q4⟩
        refine ⟨q1, ?_, q2, q3, fun c => q4 f c⟩
        show r.1.edges.Full
        rcases Layer.removeEdge_edges hq with e | e <;> rw [e]
        · exact hF
        · exact hF.drop _
    · rw [if_neg hc]
      rw [not_or, Bool.not_eq_true] at hc
      obtain ⟨htu, hn⟩ := hc
      have hfind : ∃ e, (l.edges.find f u).2 = some e := by
        have he' : l.edges.edges.contains (EdgeKey.of f u) = true := he
        obtain ⟨e0, he0⟩ := OMap.contains_eq_true.1 he'
        simp only [EdgeContainer.find, EdgeContainer.findKey, he0]
        exact ⟨_, rfl⟩
      obtain ⟨e0, hfind⟩ := hfind
      obtain ⟨a, ha⟩ := hF.found hfind
      cases hz : l.edges.status.find? (EdgeKey.of f u) with
      | none =>
        refine .of_throw ⟨.outOfRange, ?_⟩
        simp only [EdgeContainer.rewire]
        have h1 : l.edges.findKey (EdgeKey.of f u) = l.edges.find f u := rfl
        have hz' : (l.edges.find f u).1.status.find? (EdgeKey.of f u) = none := by rw [touch_status.1]; exact hz
        rw [h1, hfind]
        simp only [ha, Res.deref_some, Res.bind_ok, hz', Res.at?_none, Res.bind_throw]
      | some z =>
        rw [EdgeContainer.rewire_ok (s' := t) (t' := u) hfind ha hz, Res.bind_ok]
        generalize hD : (l.edges.find f u).1.drop (EdgeKey.of f u) = D
        generalize hC : D.insert t u (some a) = C
        have hDc : ∀ p q, D.contains p q = true → EdgeKey.of f u ≠ EdgeKey.of p q ∧ l.edges.contains p q = true := by
          intro p q hpq
          rw [← hD, EdgeContainer.contains_drop, EdgeContainer.contains_find, Bool.and_eq_true] at hpq
          exact ⟨by simpa using hpq.1, hpq.2⟩
        have q0 : (BaseLayer.static { l with edges := C }) = (BaseLayer.static l).setEc C := rfl
        have hnf : (BaseLayer.static { l with edges := C }).nd f = some x := hf
        obtain ⟨l1, u1, w1⟩ := BaseLayer.modNode_eq hnf (fun y => { y with siblings := y.siblings.erase u })
        have nd1 : ∀ m, (BaseLayer.static l1).nd m = if f = m then some (BaseLayer.delSib u x) else l.nodes.find? m := by
          intro m; rw [w1, BaseLayer.nd_setNode hnf]; rfl
        have hu1 : (BaseLayer.static l1).nd u = some y := by rw [nd1, if_neg hfu]; exact hu
        obtain ⟨l2, u2, w2⟩ := BaseLayer.modNode_eq hu1 (fun y => { y with siblings := y.siblings.erase f })
        have nd2 : ∀ m, (BaseLayer.static l2).nd m = if u = m then some (BaseLayer.delSib f y) else if f = m then some (BaseLayer.delSib u x) else l.nodes.find? m := by
          intro m; rw [w2, BaseLayer.nd_setNode hu1, nd1]; rfl
        have ht2 : (BaseLayer.static l2).nd t = some w := by rw [nd2, if_neg (Ne.symm htu), if_neg hft]; exact ht
        obtain ⟨l3, u3, w3⟩ := BaseLayer.modNode_eq ht2 (fun y => { y with siblings := y.siblings.add u })
        have nd3 : ∀ m, (BaseLayer.static l3).nd m = if t = m then some (BaseLayer.addSib u w) else (BaseLayer.static l2).nd m := by
          intro m; rw [w3, BaseLayer.nd_setNode ht2]; rfl
        have hu3 : (BaseLayer.static l3).nd u = some (BaseLayer.delSib f y) := by rw [nd3, if_neg htu, nd2, if_pos rfl]
        obtain ⟨l4, u4, w4⟩ := BaseLayer.modNode_eq hu3 (fun y => { y with siblings := y.siblings.add t })
        have nd4 : ∀ m, (BaseLayer.static l4).nd m = if u = m then some (BaseLayer.addSib t (BaseLayer.delSib f y)) else (BaseLayer.static l3).nd m := by
          intro m; rw [w4, BaseLayer.nd_setNode hu3]; rfl
        simp only [u1, u2, u3, u4, Res.bind_ok, Res.pure_eq]
        have ec4 : l4.edges = C := by
          have : (BaseLayer.static l4).ec = C := by
            rw [w4, w3]; simp only [BaseLayer.ec_setNode]; rw [w2, w1, q0]; simp
          exact this
        -- the graph with the edge dropped
        have h0 : MV (g.view.setE (.within (.static lid)) D) := h.setE _ _ (by
          intro k' p q e hpq; cases e
          rw [view_ec_of_layerAt? hb]; exact (hDc p q hpq).2)
        have hno : ∀ p q, EdgeKey.of f u = EdgeKey.of p q → ((g.view.setE (.within (.static lid)) D).ec (.within (.static lid))).contains p q = false := by
          intro p q e
          rw [View.ec_setE]
          cases hpq : D.contains p q with
          | false => rfl
          | true => exact absurd e (hDc p q hpq).1
        have h1 := h0.setN (k := .static lid) (n := f) (x := x) (y := BaseLayer.delSib u x) vf rfl rfl rfl (by
          intro c hc hc'
          have : u ≠ c := by rintro rfl; rw [hno _ _ rfl] at hc; cases hc
          simp [BaseLayer.delSib, OMap.contains_erase, hc', this])
        have h2 := h1.setN (k := .static lid) (n := u) (x := y) (y := BaseLayer.delSib f y)
          (by simp [View.setN, hfu]; exact vu) rfl rfl rfl (by
            intro c hc hc'
            have hc : ((g.view.setE (.within (.static lid)) D).ec (.within (.static lid))).contains u c = true := hc
            have : f ≠ c := by rintro rfl; rw [hno _ _ (EdgeKey.of_comm _ _)] at hc; cases hc
            simp [BaseLayer.delSib, OMap.contains_erase, hc', this])
        have h3 := h2.setN (k := .static lid) (n := t) (x := w) (y := BaseLayer.addSib u w)
          (by simp [View.setN, hft, Ne.symm htu]; exact vt) rfl rfl rfl (by intro c _ hc; simp [BaseLayer.addSib, hc])
        have h4 := h3.setN (k := .static lid) (n := u) (x := BaseLayer.delSib f y) (y := BaseLayer.addSib t (BaseLayer.delSib f y))
          (by simp [View.setN, htu]) rfl rfl rfl (by intro c _ hc; simp [BaseLayer.addSib, hc])
        have h5 := h4.setE_insert (k := .static lid) (s := t) (t := u) (x := BaseLayer.addSib u w) (y := BaseLayer.addSib t (BaseLayer.delSib f y))
          (by simp [View.setN, Ne.symm htu]) (by simp [View.setN]) htu (by simp [BaseLayer.addSib]) (by simp [BaseLayer.addSib]) (some a)
        refine ⟨?_, ?_, ?_, ?_, ?_⟩
        · refine h5.congr (by rw [view_setLayer (k := .static lid) (b := .static l4) trivial]; rfl) ?_ ?_ ?_ ?_
          · funext k m
            rw [view_setLayer (k := .static lid) (b := .static l4) trivial]
            simp only [View.setL, View.setE, View.setN]
            by_cases e : LayerKey.static lid = k
            · subst e
              simp only [if_true, nd4, nd3, nd2, true_and]
              by_cases e1 : u = m
              · simp [e1]
              · by_cases e2 : t = m
                · simp [e1, e2]
                · by_cases e3 : f = m
                  · simp [e1, e2, e3]
                  · simp only [e1, e2, e3, if_false]; rw [view_node_of_layerAt? hb]; rfl
            · simp [e]
          · intro k m
            rw [view_setLayer (k := .static lid) (b := .static l4) trivial]
            simp only [View.setL, View.setE, View.setN]
            split
            · rename_i e; subst e
              rw [w4, w3, BaseLayer.nst_setNode, BaseLayer.nst_setNode, w2, w1, q0, BaseLayer.nst_setNode, BaseLayer.nst_setNode]
              rw [show g.view.st (.static lid) m = (BaseLayer.static l).nst m by simp [view, hb]]; rfl
            · rfl
          · intro l' p m hm
            rw [view_setLayer (k := .static lid) (b := .static l4) trivial] at hm
            simp [View.setL] at hm
            exact h.info l' p m hm
          · intro k p q hpq
            rw [view_setLayer (k := .static lid) (b := .static l4) trivial] at hpq
            simp only [View.setL, View.setE, View.setN] at hpq ⊢
            by_cases e : LayerKey.static lid = k
            · subst e
              simp only [if_true, BaseLayer.ec, ec4] at hpq ⊢
              rw [hC]; exact hpq
            · have e' : Place.within (.static lid) ≠ Place.within k := by intro q; cases q; exact e rfl
              simp only [Ne.symm e', e', if_false] at hpq ⊢
              exact hpq
        · show l4.edges.Full
          rw [ec4, ← hC, ← hD]; exact ((hF.find f u).drop _).insert _ _ _
        · intro m z hz
          show ∃ x', (BaseLayer.static l4).nd m = some x' ∧ _
          rw [nd4, nd3, nd2]
          by_cases e1 : u = m
          · subst e1; rw [hu] at hz; cases hz; exact ⟨_, if_pos rfl, rfl, rfl⟩
          · by_cases e2 : t = m
            · subst e2; rw [ht] at hz; cases hz; exact ⟨BaseLayer.addSib u w, by simp [e1], rfl, rfl⟩
            · by_cases e3 : f = m
              · subst e3; rw [hf] at hz; cases hz; exact ⟨BaseLayer.delSib u x, by simp [e1, e2], rfl, rfl⟩
              · exact ⟨z, by simp [e1, e2, e3]; exact hz, rfl, rfl⟩
        · show l4.edges.contains f u = false
          rw [ec4, ← hC, EdgeContainer.contains_insert]
          have h1 : EdgeKey.of t u ≠ EdgeKey.of f u := by
            rw [Ne, EdgeKey.of_inj]; rintro (⟨rfl, -⟩ | ⟨rfl, rfl⟩)
            · exact hft rfl
            · exact hft rfl
          have h2 := hno f u rfl
          rw [View.ec_setE] at h2
          simp [h1, h2]
        · intro c hc
          have hc : l4.edges.contains f c = true := hc
          rw [ec4, ← hC, EdgeContainer.contains_insert] at hc
          have h1 : EdgeKey.of t u ≠ EdgeKey.of f c := by
            rw [Ne, EdgeKey.of_inj]; rintro (⟨rfl, -⟩ | ⟨rfl, rfl⟩)
            · exact hft rfl
            · exact hfu rfl
          simp only [h1, decide_false, Bool.false_or] at hc
          exact (hDc f c hc).2

theorem rewireSiblings_sat (h : MV g.view) {lid : LayerId} {l : Layer} (hl : g.layers.find? lid = some l) (hF : l.edges.Full) {f t : NodeId}
    (hft : f ≠ t) (ht : (l.nodes.find? t).isSome = true) (L : List NodeId) :
    Sat (fun l' : Layer => MV (g.setLayer (.static lid) (.static l')).view ∧ l'.edges.Full ∧
      (∀ n x, l.nodes.find? n = some x → ∃ x', l'.nodes.find? n = some x' ∧ x'.parents = x.parents ∧ x'.children = x.children) ∧
      (∀ u ∈ L, l'.edges.contains f u = false) ∧ ∀ c, l'.edges.contains f c = true → l.edges.contains f c = true)
      (foldRes (fun l u => (l.rewireEdge f u t u) >>= fun r => .ok r.1) l L) := by
  have hb : g.layerAt? (.static lid) = some (.static l) := by simp [layerAt?, hl]
  refine (Sat.fold_done (P := fun l' : Layer => MV (g.setLayer (.static lid) (.static l')).view ∧ l'.edges.Full ∧
      (∀ n x, l.nodes.find? n = some x → ∃ x', l'.nodes.find? n = some x' ∧ x'.parents = x.parents ∧ x'.children = x.children) ∧
      ∀ c, l'.edges.contains f c = true → l.edges.contains f c = true) (D := fun u (l' : Layer) => l'.edges.contains f u = false) L ?_ ?_).mono ?_
  · rintro l1 u hu ⟨m1, f1, n1, e1⟩
    have hl1 : (g.setLayer (.static lid) (.static l1)).layers.find? lid = some l1 := by simp [Graph.setLayer]
    obtain ⟨w, hw⟩ := Option.isSome_iff_exists.1 ht
    obtain ⟨w1, hw1, -⟩ := n1 t w hw
    refine (rewireIn_sat (u := u) m1 hl1 f1 hft (by simp [hw1])).bind ?_
    rintro ⟨l2, ok⟩ ⟨m2, f2, n2, q2, e2⟩
    refine ⟨⟨?_, f2, ?_, fun c hc => e1 c (e2 c hc)⟩, q2, ?_⟩
    · rw [setLayer_setLayer (k := .static lid) (b := .static l1) (b' := .static l2) trivial trivial] at m2; exact m2
    · intro n x hx
      obtain ⟨x1, g1, g2, g3⟩ := n1 n x hx
      obtain ⟨x2, g4, g5, g6⟩ := n2 n x1 g1
      exact ⟨x2, g4, g5.trans g2, g6.trans g3⟩
    · intro v hv
      cases e : l2.edges.contains f v with
      | false => rfl
      | true => rw [e2 _ e] at hv; cases hv
  · exact ⟨by rw [setLayer_self hb]; exact h, hF, fun n x hx => ⟨x, hx, rfl, rfl⟩, fun _ h => h⟩
  · rintro b' ⟨⟨a1, a2, a3, a4⟩, a5, -⟩
    exact ⟨a1, a2, a3, a5, a4⟩

/-- The layer-level `mergeNodes` of a node without parents and children. -/
theorem layerMerge_sat (h : MV g.view) {lid : LayerId} {l : Layer} (hl : g.layers.find? lid = some l) (hF : l.edges.Full) {f t : NodeId} {x : Node}
    (hft : f ≠ t) (hf : l.nodes.find? f = some x) (ht : (l.nodes.find? t).isSome = true)
    (hp : ∀ u, x.parents.contains u = false) (hc : ∀ u, x.children.contains u = false) :
    Sat (fun r : Layer × Bool => MV ({ g with layers := g.layers.insert lid r.1, lookup := g.lookup.erase f } : Graph).view ∧ r.1.edges.Full)
      (l.mergeNodes f t) := by
  have hb : g.layerAt? (.static lid) = some (.static l) := by simp [layerAt?, hl]
  have hsib : ∀ c, l.edges.contains f c = true → x.siblings.contains c = true := by
    intro c hcc
    have hcc' : (BaseLayer.static l).ec.contains f c = true := hcc
    rw [← view_ec_of_layerAt? hb] at hcc'
    obtain ⟨-, x', -, h1, -, h2, -⟩ := h.edge _ _ _ hcc'
    rw [view_node_of_layerAt? hb] at h1
    have h1 : l.nodes.find? f = some x' := h1
    rw [hf] at h1; cases h1; exact h2
  have hn : l.hasNode t = true := by
    obtain ⟨w, hw⟩ := Option.isSome_iff_exists.1 ht
    simp [Layer.hasNode, OMap.contains, hw]
  simp only [Layer.mergeNodes, hf, hn, hft, Bool.not_true, Bool.false_eq_true, if_false]
  refine (rewireSiblings_sat h hl hF hft ht x.siblings.keys).bind ?_
  rintro l2 ⟨m2, f2, n2, d2, s2⟩
  obtain ⟨x2, g1, g2, g3⟩ := n2 f x hf
  have hb2 : (g.setLayer (.static lid) (.static l2)).layerAt? (.static lid) = some (.static l2) := by
    rw [layerAt?_setLayer' (k := .static lid) (b := .static l2) trivial]; simp
  refine ⟨?_, f2⟩
  have := delIn_mv (z := .merged) m2 hb2
    (b' := .static { l2 with nodes := l2.nodes.erase f, status := l2.status.insert f .merged }) trivial g1 (by rw [g2]; exact hp) (by rw [g3]; exact hc) (by
    intro c
    cases e : (BaseLayer.static l2).ec.contains f c with
    | false => rfl
    | true =>
      have q := s2 _ e
      have := d2 c (OMap.mem_keys.2 (hsib c q))
      exact absurd (this.symm.trans e) (by simp))
    (by intro m; simp only [BaseLayer.nd, OMap.find?_erase]) (by intro m; simp only [BaseLayer.nst, OMap.find?_insert]) rfl ⟨rfl, rfl⟩
  rw [setLayer_setLayer (k := .static lid) (b := .static l2) (b' := .static _) trivial trivial] at this
  exact this

/-- Merging two nodes is not undefined behaviour unless they are in one trajectory whose layer id has no static layer. -/
theorem mergeNodes_sat (h : MV g.view) (hF : g.view.Full) (f t : NodeId)
    (hd : ∀ l p, f ≠ t → g.lookup.find? f = some (.dyn l p) → g.lookup.find? t = some (.dyn l p) → (g.layers.find? l).isSome = true) :
    Sat (fun r => MV r.1.view ∧ r.1.view.Full) (g.mergeNodes f t) := by
  unfold mergeNodes
  cases hf : g.lookup.find? f with
  | none => exact ⟨h, hF⟩
  | some k =>
    cases ht : g.lookup.find? t with
    | none => exact ⟨h, hF⟩
    | some k' =>
      simp only
      split
      · exact ⟨h, hF⟩
      rename_i hft
      split
      · exact ⟨h, hF⟩
      rename_i hkk
      have hkk : k = k' := Decidable.of_not_not hkk
      subst hkk
      cases k with
      | dyn l p =>
        obtain ⟨x, hx⟩ := Option.isSome_iff_exists.1 (hd l p hft hf ht)
        refine .of_throw ⟨.outOfRange, ?_⟩
        have : x.nodes.find? f = none := by
          cases e : x.nodes.find? f with
          | none => rfl
          | some y =>
            have : g.view.node (.static l) f = some y := by
              rw [view_node_of_layerAt? (b := .static x) (by simp [layerAt?, hx])]; exact e
            have := (h.key f (.static l)).2 (by simp [this])
            have h2 : g.view.lookup f = some (.dyn l p) := hf
            rw [h2] at this; cases this
        simp only [LayerKey.layer, hx, Res.deref_some, Res.bind_ok, this, Res.at?_none, Res.bind_throw]
      | static lid =>
        -- reading the layer of a node
        have rd : ∀ (g1 : Graph) (n : NodeId) (x : Node), g1.view.node (.static lid) n = some x →
            ∃ l, g1.layers.find? lid = some l ∧ l.nodes.find? n = some x := by
          intro g1 n x hx
          obtain ⟨b, hb, hn⟩ := layerAt?_of_view_node hx
          simp only [layerAt?] at hb
          cases e : g1.layers.find? lid with
          | none => rw [e] at hb; cases hb
          | some l => rw [e] at hb; cases hb; exact ⟨l, rfl, hn⟩
        obtain ⟨x, hx⟩ := Option.isSome_iff_exists.1 ((h.key f _).1 hf)
        obtain ⟨l0, e0, x0⟩ := rd g f x hx
        simp only [LayerKey.layer, e0, Res.deref_some, Res.bind_ok, x0, Res.at?_some]
        refine (rewireAll_sat h hF hf ht hft x.parents.keys Node.parents (.inr ⟨rfl, fun t ht => OMap.mem_keys.1 ht⟩) hx).bind ?_
        rintro g1 ⟨N1, F1, D1⟩
        have hf1 : g1.lookup.find? f = some (.static lid) := (N1.look f).trans hf
        have ht1 : g1.lookup.find? t = some (.static lid) := (N1.look t).trans ht
        obtain ⟨x1, hx1, c1, p1⟩ := N1.node
        obtain ⟨l1, e1, y1⟩ := rd g1 f x1 hx1
        simp only [e1, Res.deref_some, Res.bind_ok, y1, Res.at?_some]
        refine (rewireAll_sat N1.mv F1 hf1 ht1 hft x1.children.keys Node.children (.inl ⟨rfl, fun t ht => OMap.mem_keys.1 ht⟩) hx1).bind ?_
        rintro g2 ⟨N2, F2, D2⟩
        have hf2 : g2.lookup.find? f = some (.static lid) := (N2.look f).trans hf1
        have ht2 : g2.lookup.find? t = some (.static lid) := (N2.look t).trans ht1
        obtain ⟨x2, hx2, c2, p2⟩ := N2.node
        obtain ⟨l2, e2, y2⟩ := rd g2 f x2 hx2
        obtain ⟨w, hw⟩ := Option.isSome_iff_exists.1 ((N2.mv.key t _).1 ht2)
        obtain ⟨l2', e2', w2⟩ := rd g2 t w hw
        rw [e2] at e2'; cases e2'
        simp only [e2, Res.deref_some, Res.bind_ok]
        have Fl : l2.edges.Full := by
          have := F2 (.within (.static lid))
          rw [view_ec_of_layerAt? (b := .static l2) (by simp [layerAt?, e2])] at this; exact this
        refine (layerMerge_sat N2.mv e2 Fl hft y2 (by simp [w2]) ?_ ?_).bind ?_
        · intro u
          cases e : x2.parents.contains u with
          | false => rfl
          | true =>
            have e' := p2 u e
            rw [D1 u (OMap.mem_keys.2 (p1 u e')) x1 hx1] at e'; cases e'
        · intro u
          cases e : x2.children.contains u with
          | false => rfl
          | true => rw [← e, D2 u (OMap.mem_keys.2 (c2 u e)) x2 hx2]
        · rintro ⟨l3, ok⟩ ⟨q1, q2⟩
          refine ⟨q1, ?_⟩
          have hv : ({ g2 with layers := g2.layers.insert lid l3, lookup := g2.lookup.erase f } : Graph).view =
              { g2.view.setL (.static lid) (.static l3) with lookup := (g2.lookup.erase f).find? } := by
            rw [show ({ g2 with layers := g2.layers.insert lid l3, lookup := g2.lookup.erase f } : Graph) =
              { g2.setLayer (.static lid) (.static l3) with lookup := g2.lookup.erase f } from rfl, view_lookup,
              view_setLayer (k := .static lid) (b := .static _) trivial]
          show View.Full ({ g2 with layers := g2.layers.insert lid l3, lookup := g2.lookup.erase f } : Graph).view
          rw [hv]
          intro c
          simp only [View.setL]
          split
          · exact q2
          · exact F2 c

end Graph
end Verif
