import Verif.Model.Update
import Verif.Spec.Update
import Verif.Refine.Logs
import Verif.Refine.Run
import Verif.Refine.Refused
/-! # What `updateFromLayer` does -/

namespace Verif

section
variable {g : Graph} {σ : Spec}

theorem R.shows (h : R g σ) (hw : SWF σ) : g.Shows σ where
  layerIds := h.layerIds
  mesh := h.mesh
  layers l := by rw [← h.static_layer]; rfl
  dyns l p := by
    have := RV.has h (.dyn l p)
    simpa [Graph.view, Graph.layerAt?, Graph.hasDynLayer, Spec.hasKey] using this
  nodes := h.nodeObs hw
  edges := h.edgeObs hw
  hasEdge := h.hasEdge hw
  adj := h.adjObs hw

theorem R.behaves (h : R g σ) (hw : SWF σ) : g.Behaves σ := by
  intro ops hok
  obtain ⟨g', outs, e, hr, hw', ha⟩ := h.run hw ops hok
  exact ⟨g', outs, e, ha, hr.shows hw'⟩

/-- Change logs of steps that only add compose. -/
theorem Adv.trans_mono {v v' v'' : View} {σ' σ'' : Spec} {gone : NodeStatus} (h1 : Adv gone v v' σ') (h2 : Adv gone v' v'' σ'')
    (m1 : ∀ k n, (v.node k n).isSome = true → (v'.node k n).isSome = true)
    (m2 : ∀ k n, (v'.node k n).isSome = true → (v''.node k n).isSome = true)
    (e1 : ∀ c key, v.hasE c key = true → v'.hasE c key = true) (e2 : ∀ c key, v'.hasE c key = true → v''.hasE c key = true) :
    Adv gone v v'' σ'' := by
  refine ⟨h2.r, ?_, ?_⟩
  · intro k n
    have a := h1.nlog k n
    have b := h2.nlog k n
    have c1 := m1 k n
    have c2 := m2 k n
    rw [b, a]
    cases h0 : (v.node k n).isSome <;> cases h1' : (v'.node k n).isSome <;> cases h2' : (v''.node k n).isSome <;>
      simp_all
  · intro c key
    have a := h1.elog c key
    have b := h2.elog c key
    have c1 := e1 c key
    have c2 := e2 c key
    rw [b, a]
    cases h0 : v.hasE c key <;> cases h1' : v'.hasE c key <;> cases h2' : v''.hasE c key <;> simp_all

/-- `g` with one static layer and the lookup table replaced. -/
def Graph.withLayer (g : Graph) (l : LayerId) (st : Layer × OMap NodeId LayerKey) : Graph :=
  { g with layers := g.layers.insert l st.1, lookup := st.2 }

theorem Graph.withLayer_find (g : Graph) (l : LayerId) (st : Layer × OMap NodeId LayerKey) :
    (g.withLayer l st).layers.find? l = some st.1 := OMap.find?_insert_self _ _ _

theorem Graph.withLayer_at (g : Graph) (l : LayerId) (st : Layer × OMap NodeId LayerKey) :
    (g.withLayer l st).layerAt? (.static l) = some (.static st.1) := by
  simp [Graph.layerAt?, Graph.withLayer_find]

theorem Graph.withLayer_set (g : Graph) (l : LayerId) (x y : Layer) (lk : OMap NodeId LayerKey) :
    (g.withLayer l (x, lk)).setLayer (.static l) (.static y) = g.withLayer l (y, lk) := by
  simp [Graph.setLayer, Graph.withLayer, OMap.insert_insert]

theorem R.withLayer_id {l : LayerId} {st : Layer × OMap NodeId LayerKey} (h : R (g.withLayer l st) σ) : st.1.id = l :=
  h.info (.static l) (BaseLayer.info (.static st.1)) (by simp [Graph.view, Graph.withLayer_at])

theorem R.withLayer_node {l : LayerId} {st : Layer × OMap NodeId LayerKey} (h : R (g.withLayer l st) σ) (n : NodeId) :
    st.1.nodes.find? n = σ.nodeRec (.static l) n := by
  rw [← RV.node h]
  simp [Graph.view, Graph.withLayer_at, BaseLayer.nd]

theorem Spec.nodeRec_key {n : NodeId} {k : LayerKey} {i : NodeInfo} (h : σ.nodes.find? n = some i) (hk : i.key = k) :
    σ.nodeRec k n = some (σ.mkNode n i) := by subst hk; exact Spec.nodeRec_eq h

/-- A node of the source, offered to the abstract graph. -/
def Spec.offerNode (σ : Spec) (l : LayerId) (n : NodeId) (t : Option Stamp) (a : NodeAttrs) : Spec :=
  match σ.nodes.find? n with
  | some i => { σ with nodes := σ.nodes.insert n { i with attrs := a } }
  | none => σ.addNode n ⟨.static l, t, a⟩

theorem R.updateNode {l : LayerId} {st : Layer × OMap NodeId LayerKey} (h : R (g.withLayer l st) σ) (hw : SWF σ) (hl : l ≠ UNKNOWN_LAYER)
    {n : NodeId} {y : Node} {a : NodeAttrs} (hid : y.id = n) (hyl : y.layer = l) (ha : y.attrs = some a)
    (hkey : σ.key? n = none ∨ σ.key? n = some (.static l))
    (hplain : σ.key? n = none → y.parents = ∅ ∧ y.children = ∅ ∧ y.siblings = ∅) :
    Adv .deleted (g.withLayer l st).view (g.withLayer l (Layer.updateNode st (n, y))).view (σ.offerNode l n y.timestamp a) ∧
    SWF (σ.offerNode l n y.timestamp a) := by
  have hid' := h.withLayer_id
  have hfind := h.withLayer_node n
  cases hn : σ.nodes.find? n with
  | some i =>
    have hk := Spec.key?_eq hn
    have hki : i.key = .static l := by rw [hk] at hkey; simpa using hkey
    rw [Spec.nodeRec_key hn hki] at hfind
    obtain ⟨g', e, hA⟩ := h.setNodeAttributes hw n a .deleted
    have hg' : g' = g.withLayer l (Layer.updateNode st (n, y)) := by
      simp only [Graph.setNodeAttributes, h.lookup', hk, hki, Graph.modNode, Graph.getNodePtr, Graph.withLayer_find, Res.at?_some,
        Res.bind_ok, hfind, Res.deref_some, Res.pure_eq, Res.ok.injEq, Prod.mk.injEq] at e
      rw [← e.1]
      simp only [Layer.updateNode, hfind, Graph.withLayer, OMap.insert_insert, ha]
    subst hg'
    have hs : (σ.setNodeAttrs n a).1 = σ.offerNode l n y.timestamp a := by
      simp [Spec.setNodeAttrs, Spec.offerNode, hn]
    rw [hs] at hA
    exact ⟨hA, hs ▸ hw.setNodeAttrs n a⟩
  | none =>
    have hk : σ.key? n = none := by simp [Spec.key?, hn]
    have hfind' : st.1.nodes.find? n = none := by rw [hfind]; simp [Spec.nodeRec, hn]
    obtain ⟨g', e, hA⟩ := h.insertNode hw l n y.timestamp a .deleted
    obtain ⟨p1, p2, p3⟩ := hplain hk
    have hy : y = { id := n, layer := l, timestamp := y.timestamp, attrs := some a } := by
      cases y
      simp only at hid hyl ha p1 p2 p3
      subst hid hyl ha p1 p2 p3
      rfl
    have hlc : σ.layerIds.contains l = true := by
      rw [← h.static_layer]; simp [Graph.withLayer_find]
    have hnc : σ.nodes.contains n = false := OMap.contains_eq_false.2 hn
    have hlk : (g.withLayer l st).lookup.contains n = false := OMap.contains_eq_false.2 (by rw [h.lookup', hk])
    have hg' : g' = g.withLayer l (Layer.updateNode st (n, y)) := by
      have hh : st.1.hasNode n = false := OMap.contains_eq_false.2 hfind'
      simp only [Graph.insertNode, hlk, Graph.withLayer_find, Bool.false_eq_true, if_false, Layer.insertNode, hid', ne_eq,
        not_true, hh, if_true, Prod.mk.injEq] at e
      rw [← e.1]
      simp only [Layer.updateNode, hfind', Graph.withLayer, OMap.insert_insert, hid']
      rw [← hy]
    subst hg'
    have hs : (σ.emplaceNode l n y.timestamp a).1 = σ.offerNode l n y.timestamp a := by
      simp [Spec.emplaceNode, Spec.offerNode, hn, hnc, hlc, -List.contains_eq_mem]
    rw [hs] at hA
    exact ⟨hA, hs ▸ hw.emplaceNode hl n y.timestamp a⟩


theorem Spec.offerNode_find (l : LayerId) (n : NodeId) (t : Option Stamp) (a : NodeAttrs) (m : NodeId) :
    (σ.offerNode l n t a).nodes.find? m =
      if n = m then some (match σ.nodes.find? n with | some i => { i with attrs := a } | none => ⟨.static l, t, a⟩) else σ.nodes.find? m := by
  unfold Spec.offerNode
  cases σ.nodes.find? n <;> simp [Spec.addNode, OMap.find?_insert]

theorem Spec.offerNode_rest (l : LayerId) (n : NodeId) (t : Option Stamp) (a : NodeAttrs) :
    (σ.offerNode l n t a).edges = σ.edges ∧ (σ.offerNode l n t a).marks = σ.marks ∧ (σ.offerNode l n t a).dyn = σ.dyn ∧
    (σ.offerNode l n t a).layerIds = σ.layerIds ∧ (σ.offerNode l n t a).mesh = σ.mesh := by
  unfold Spec.offerNode
  cases σ.nodes.find? n <;> exact ⟨rfl, rfl, rfl, rfl, rfl⟩

theorem Spec.offerNode_key (l : LayerId) (n : NodeId) (t : Option Stamp) (a : NodeAttrs) (m : NodeId) {k : LayerKey}
    (h : σ.key? m = some k) : (σ.offerNode l n t a).key? m = some k := by
  unfold Spec.key? at *
  rw [Spec.offerNode_find]
  split
  · rename_i e
    subst e
    cases hn : σ.nodes.find? n with
    | none => rw [hn] at h; cases h
    | some i => rw [hn] at h; exact h
  · exact h

/-- What an offered node becomes. -/
def offered (l : LayerId) (old : Option NodeInfo) (t : Option Stamp) (a : NodeAttrs) : NodeInfo :=
  match old with
  | some i => { i with attrs := a }
  | none => ⟨.static l, t, a⟩

theorem View.mono_of_nodes {v v' : View} {σ' : Spec} (h : RV v σ) (h' : RV v' σ') (hk : ∀ n k, σ.key? n = some k → σ'.key? n = some k)
    (k : LayerKey) (n : NodeId) (hs : (v.node k n).isSome = true) : (v'.node k n).isSome = true := by
  rw [h.node] at hs
  rw [h'.node]
  unfold Spec.nodeRec at *
  cases hn : σ.nodes.find? n with
  | none => rw [hn] at hs; cases hs
  | some i =>
    rw [hn] at hs
    simp only [Option.bind_some] at hs
    split at hs
    · rename_i e
      have := hk n k (by rw [Spec.key?_eq hn, e])
      obtain ⟨j, hj, hjk⟩ := Spec.exists_of_key? this
      simp [hj, hjk]
    · cases hs

theorem View.mono_of_edges {v v' : View} {σ' : Spec} (h : RV v σ) (h' : RV v' σ') (hw : SWF σ) (hk : ∀ n k, σ.key? n = some k → σ'.key? n = some k)
    (he : ∀ key, σ.edges.contains key = true → σ'.edges.contains key = true) (c : Place) (key : EdgeKey)
    (hs : v.hasE c key = true) : v'.hasE c key = true := by
  unfold View.hasE at *
  rw [(h.ec c).edges] at hs
  rw [(h'.ec c).edges]
  unfold Spec.edgeRec at *
  cases hn : σ.edges.find? key with
  | none => rw [hn] at hs; cases hs
  | some i =>
    obtain ⟨j, hj⟩ := OMap.contains_eq_true.1 (he key (OMap.contains_eq_true.2 ⟨i, hn⟩))
    rw [hn] at hs
    simp only [Option.bind_some] at hs
    split at hs
    · rename_i e
      have : σ'.placeOf key = some c := by
        unfold Spec.placeOf at e ⊢
        cases h1 : σ.key? key.k1 with
        | none => rw [h1] at e; cases e
        | some k1 =>
          cases h2 : σ.key? key.k2 with
          | none => rw [h1, h2] at e; cases e
          | some k2 => rw [h1, h2] at e; rw [hk _ _ h1, hk _ _ h2]; exact e
      simp [hj, this]
    · cases hs

/-- The node loop. -/
theorem R.updateNodes {l : LayerId} (N : List (NodeId × Node)) {st : Layer × OMap NodeId LayerKey} {σ : Spec} (h : R (g.withLayer l st) σ) (hw : SWF σ)
    (hl : l ≠ UNKNOWN_LAYER) (hnd : (N.map Prod.fst).Nodup)
    (hN : ∀ e ∈ N, e.2.id = e.1 ∧ e.2.layer = l ∧ e.2.attrs.isSome = true ∧ (σ.key? e.1 = none ∨ σ.key? e.1 = some (.static l)) ∧
      (σ.key? e.1 = none → e.2.parents = ∅ ∧ e.2.children = ∅ ∧ e.2.siblings = ∅)) :
    ∃ σ', Adv .deleted (g.withLayer l st).view (g.withLayer l (N.foldl Layer.updateNode st)).view σ' ∧ SWF σ' ∧
      (∀ e ∈ N, ∀ a, e.2.attrs = some a → σ'.nodes.find? e.1 = some (offered l (σ.nodes.find? e.1) e.2.timestamp a)) ∧
      (∀ m, m ∉ N.map Prod.fst → σ'.nodes.find? m = σ.nodes.find? m) ∧
      σ'.edges = σ.edges ∧ σ'.marks = σ.marks ∧ σ'.dyn = σ.dyn ∧ σ'.layerIds = σ.layerIds ∧ σ'.mesh = σ.mesh ∧
      (∀ n k, σ.key? n = some k → σ'.key? n = some k) := by
  induction N generalizing st σ with
  | nil => exact ⟨σ, Adv.refl _ h, hw, by simp, by simp, rfl, rfl, rfl, rfl, rfl, fun _ _ h => h⟩
  | cons e N ih =>
    obtain ⟨n, y⟩ := e
    obtain ⟨q1, q2, q3, q4, q5⟩ := hN (n, y) List.mem_cons_self
    obtain ⟨a, ha⟩ := Option.isSome_iff_exists.1 q3
    obtain ⟨hA, hw1⟩ := h.updateNode hw hl q1 q2 ha q4 q5
    simp only [List.map_cons, List.nodup_cons] at hnd
    have hne : ∀ e ∈ N, n ≠ e.1 := fun e he h' => hnd.1 (h' ▸ List.mem_map_of_mem he)
    have hk1 : ∀ e ∈ N, (σ.offerNode l n y.timestamp a).key? e.1 = σ.key? e.1 := by
      intro e he
      unfold Spec.key?
      rw [Spec.offerNode_find, if_neg (hne e he)]
    obtain ⟨σ', a1, a2, a3, a4, a5, a6, a7, a8, a9, a10⟩ := ih (st := Layer.updateNode st (n, y)) (σ := σ.offerNode l n y.timestamp a) hA.r hw1 hnd.2 (by
      intro e he
      obtain ⟨r1, r2, r3, r4, r5⟩ := hN e (List.mem_cons_of_mem _ he)
      rw [hk1 e he]
      exact ⟨r1, r2, r3, r4, r5⟩)
    obtain ⟨b1, b2, b3, b4, b5⟩ := Spec.offerNode_rest (σ := σ) l n y.timestamp a
    have hmono : ∀ m k, σ.key? m = some k → (σ.offerNode l n y.timestamp a).key? m = some k := fun m k => Spec.offerNode_key l n _ a m
    refine ⟨σ', ?_, a2, ?_, ?_, a5.trans b1, a6.trans b2, a7.trans b3, a8.trans b4, a9.trans b5, fun m k hk => a10 m k (hmono m k hk)⟩
    · exact hA.trans_mono a1 (View.mono_of_nodes h hA.r hmono) (View.mono_of_nodes hA.r a1.r a10)
        (View.mono_of_edges h hA.r hw hmono (by rw [b1]; exact fun _ h => h))
        (View.mono_of_edges hA.r a1.r hw1 a10 (by rw [a5]; exact fun _ h => h))
    · intro e he w hw'
      rcases List.mem_cons.1 he with rfl | he
      · rw [a4 _ hnd.1, Spec.offerNode_find, if_pos rfl]
        have : a = w := by have := ha.symm.trans hw'; injection this
        subst this
        rfl
      · rw [a3 e he w hw', Spec.offerNode_find, if_neg (hne e he)]
    · intro m hm
      simp only [List.map_cons, List.mem_cons, not_or] at hm
      rw [a4 m hm.2, Spec.offerNode_find, if_neg (Ne.symm hm.1)]

/-- An edge, offered to the abstract graph. -/
def Spec.offerEdge (σ : Spec) (l : LayerId) (e : Edge) : Spec :=
  if σ.key? e.source = some (.static l) ∧ σ.key? e.target = some (.static l) ∧ e.source ≠ e.target then
    match σ.edge? e.source e.target with
    | some i => { σ with edges := σ.edges.insert (EdgeKey.of e.source e.target) { i with attrs := e.info.getD {} } }
    | none => σ.addEdge e.source e.target (e.info.getD {})
  else σ

theorem R.withLayer_hasEdge {l : LayerId} {st : Layer × OMap NodeId LayerKey} (h : R (g.withLayer l st) σ) {s t : NodeId}
    (hs : σ.key? s = some (.static l)) (ht : σ.key? t = some (.static l)) : st.1.hasEdge s t = σ.hasEdge s t := by
  have hc := RV.contains_eq h hs ht
  simp only [place, if_true] at hc
  rw [h.ecWithin (g.withLayer_at l st)] at hc
  exact hc

theorem R.withLayer_noEdge {l : LayerId} {st : Layer × OMap NodeId LayerKey} (h : R (g.withLayer l st) σ) (hw : SWF σ) {s t : NodeId}
    (hn : σ.key? s ≠ some (.static l) ∨ σ.key? t ≠ some (.static l)) : st.1.hasEdge s t = false := by
  have he := (RV.ec h (.within (.static l))).edges (EdgeKey.of s t)
  rw [h.ecWithin (g.withLayer_at l st)] at he
  refine OMap.contains_eq_false.2 ?_
  rw [show st.1.edges = (BaseLayer.static st.1).ec from rfl, he]
  unfold Spec.edgeRec
  cases hx : σ.edges.find? (EdgeKey.of s t) with
  | none => rfl
  | some i =>
    simp only [Option.bind_some]
    rw [if_neg]
    intro hp
    obtain ⟨-, h1, h2⟩ := hw.hasEdge_nodes (show σ.hasEdge s t = true from OMap.contains_eq_true.2 ⟨i, hx⟩)
    obtain ⟨k1, h1⟩ := Spec.key_of_contains h1
    obtain ⟨k2, h2⟩ := Spec.key_of_contains h2
    rw [Spec.placeOf_of h1 h2] at hp
    unfold place at hp
    split at hp
    · rename_i hkk
      injection hp with hp
      injection hp with hp
      rw [h1, h2, ← hkk, hp] at hn
      simp at hn
    · cases hp

theorem R.withLayer_hasNode {l : LayerId} {st : Layer × OMap NodeId LayerKey} (h : R (g.withLayer l st) σ) (n : NodeId) :
    st.1.hasNode n = decide (σ.key? n = some (.static l)) := by
  have := h.layer_hasNode (Graph.layerFromKey_iff.2 (g.withLayer_at l st)) n
  exact this

theorem SWF.offerEdge (hw : SWF σ) (l : LayerId) (e : Edge) : SWF (σ.offerEdge l e) := by
  unfold Spec.offerEdge
  split
  · rename_i hc
    cases hx : σ.edge? e.source e.target with
    | some i =>
      refine hw.congr rfl rfl rfl (fun _ _ h => h) ?_
      intro key e' h
      simp only [OMap.find?_insert] at h
      split at h
      · rename_i e1; subst e1; cases h; exact ⟨i, hx, rfl, rfl⟩
      · exact ⟨e', h, rfl, rfl⟩
    | none =>
      exact hw.addEdge (by rw [Spec.contains_of_key?, hc.1]; rfl) (by rw [Spec.contains_of_key?, hc.2.1]; rfl) hc.2.2 _
  · exact hw

theorem R.updateEdge {l : LayerId} {x : Layer} {lk : OMap NodeId LayerKey} (h : R (g.withLayer l (x, lk)) σ) (hw : SWF σ)
    {k : EdgeKey} {e : Edge} (hk : k = EdgeKey.of e.source e.target) (hi : σ.hasEdge e.source e.target = true → e.info.isSome = true) :
    ∃ y, x.updateEdge (k, e) = .ok y ∧ Adv .deleted (g.withLayer l (x, lk)).view (g.withLayer l (y, lk)).view (σ.offerEdge l e) := by
  subst hk
  unfold Layer.updateEdge
  by_cases hin : σ.key? e.source = some (.static l) ∧ σ.key? e.target = some (.static l)
  · have hhe : x.hasEdge e.source e.target = σ.hasEdge e.source e.target := h.withLayer_hasEdge hin.1 hin.2
    simp only [hhe]
    by_cases hne : e.source = e.target
    · have hf : σ.hasEdge e.source e.target = false := by rw [hne]; exact hw.hasEdge_self _
      simp only [hf, Bool.false_eq_true, if_false]
      refine ⟨x, ?_, ?_⟩
      · simp [Layer.insertEdge, hne]
      · simpa [Spec.offerEdge, hne] using Adv.refl .deleted h
    · cases hx : σ.edge? e.source e.target with
      | some i =>
        have ht : σ.hasEdge e.source e.target = true := OMap.contains_eq_true.2 ⟨i, hx⟩
        obtain ⟨w, hwi⟩ := Option.isSome_iff_exists.1 (hi ht)
        have hA := adv_setInfo h hin.1 hin.2 hx w .deleted
        simp only [place, if_true] at hA
        have hb := g.withLayer_at l (x, lk)
        have hfind := RV.edge_some h hin.1 hin.2 hx
        simp only [place, if_true, h.ecWithin hb] at hfind
        have hfind' : x.edges.edges.find? (EdgeKey.of e.source e.target) = some (Spec.mkEdge i) := hfind
        rw [h.ecWithin hb, ← Graph.setL_setEc hb, ← Graph.view_setLayer (by exact trivial)] at hA
        simp only [ht, if_true, hfind', Res.at?_some, Res.bind_ok]
        refine ⟨_, rfl, ?_⟩
        have hs : σ.offerEdge l e = { σ with edges := σ.edges.insert (EdgeKey.of e.source e.target) { i with attrs := w } } := by
          simp [Spec.offerEdge, hin, hne, hx, hwi]
        rw [hs]
        have hg : (g.withLayer l (x, lk)).setLayer (.static l) ((BaseLayer.static x).setEc
            ((BaseLayer.static x).ec.setInfo (EdgeKey.of e.source e.target) (some w))) =
            g.withLayer l ({ x with edges := { x.edges with edges := x.edges.edges.insert (EdgeKey.of e.source e.target) { Spec.mkEdge i with info := e.info } } }, lk) := by
          rw [BaseLayer.setEc, Graph.withLayer_set]
          simp [BaseLayer.ec, EdgeContainer.setInfo, hfind', hwi]
        rw [hg] at hA
        exact hA
      | none =>
        have hf : σ.hasEdge e.source e.target = false := OMap.contains_eq_false.2 hx
        obtain ⟨i, hi1, hi2⟩ := Spec.exists_of_key? hin.1
        obtain ⟨j, hj1, hj2⟩ := Spec.exists_of_key? hin.2
        have hb := g.withLayer_at l (x, lk)
        obtain ⟨b', he', -, hA⟩ := h.layer_insert hi1 hj1 (hi2.trans hj2.symm) hne hf (by rw [hi2]; exact hb) e.info .deleted
        simp only [hf, Bool.false_eq_true, if_false]
        simp only [BaseLayer.insertEdge] at he'
        obtain ⟨r, hr, hr'⟩ := bind_eq_ok he'
        simp only [Res.ok.injEq, Prod.mk.injEq] at hr'
        refine ⟨r.1, by rw [hr]; rfl, ?_⟩
        rw [← hr'.1, hi2, Graph.withLayer_set] at hA
        have hs : σ.offerEdge l e = σ.addEdge e.source e.target (e.info.getD {}) := by
          simp [Spec.offerEdge, hin, hne, hx]
        rw [hs]
        exact hA
  · have hn : σ.key? e.source ≠ some (.static l) ∨ σ.key? e.target ≠ some (.static l) := by
      by_cases h1 : σ.key? e.source = some (.static l)
      · exact .inr (fun h2 => hin ⟨h1, h2⟩)
      · exact .inl h1
    have hf : x.hasEdge e.source e.target = false := h.withLayer_noEdge hw hn
    simp only [hf, Bool.false_eq_true, if_false]
    refine ⟨x, ?_, ?_⟩
    · have h1 := h.withLayer_hasNode e.source
      have h2 := h.withLayer_hasNode e.target
      simp only at h1 h2
      unfold Layer.insertEdge
      simp only [hf, h1, h2]
      rcases hn with hn | hn
      · simp [hn]
      · by_cases h3 : σ.key? e.source = some (.static l) <;> simp [hn, h3]
    · have hs : σ.offerEdge l e = σ := by
        unfold Spec.offerEdge
        rw [if_neg (fun h => hin ⟨h.1, h.2.1⟩)]
      rw [hs]
      exact Adv.refl .deleted h


/-- What a listed edge becomes. -/
def offeredE (old : Option EdgeInfo) (e : Edge) : EdgeInfo :=
  match old with
  | some i => { i with attrs := e.info.getD {} }
  | none => ⟨e.source, e.target, e.info.getD {}⟩

theorem Spec.offerEdge_find (l : LayerId) (e : Edge) (key : EdgeKey) :
    (σ.offerEdge l e).edges.find? key =
      if σ.key? e.source = some (.static l) ∧ σ.key? e.target = some (.static l) ∧ e.source ≠ e.target then
        (if EdgeKey.of e.source e.target = key then some (offeredE (σ.edges.find? key) e) else σ.edges.find? key)
      else σ.edges.find? key := by
  unfold Spec.offerEdge
  split
  · cases hx : σ.edge? e.source e.target with
    | some i =>
      simp only [OMap.find?_insert]
      split
      · rename_i h; subst h; rw [show σ.edges.find? _ = some i from hx]; rfl
      · rfl
    | none =>
      simp only [Spec.addEdge, OMap.find?_insert]
      split
      · rename_i h; subst h; rw [show σ.edges.find? _ = none from hx]; rfl
      · rfl
  · rfl

theorem Spec.offerEdge_rest (l : LayerId) (e : Edge) :
    (σ.offerEdge l e).nodes = σ.nodes ∧ (σ.offerEdge l e).marks = σ.marks ∧ (σ.offerEdge l e).dyn = σ.dyn ∧
    (σ.offerEdge l e).layerIds = σ.layerIds ∧ (σ.offerEdge l e).mesh = σ.mesh := by
  unfold Spec.offerEdge
  split
  · cases σ.edge? e.source e.target <;> exact ⟨rfl, rfl, rfl, rfl, rfl⟩
  · exact ⟨rfl, rfl, rfl, rfl, rfl⟩

/-- The edge loop. -/
theorem R.updateEdges {l : LayerId} (E : List (EdgeKey × Edge)) {x : Layer} {lk : OMap NodeId LayerKey} {σ : Spec}
    (h : R (g.withLayer l (x, lk)) σ) (hw : SWF σ) (hnd : (E.map Prod.fst).Nodup)
    (hE : ∀ e ∈ E, e.1 = EdgeKey.of e.2.source e.2.target ∧ (σ.hasEdge e.2.source e.2.target = true → e.2.info.isSome = true)) :
    ∃ y σ', foldRes Layer.updateEdge x E = .ok y ∧ Adv .deleted (g.withLayer l (x, lk)).view (g.withLayer l (y, lk)).view σ' ∧ SWF σ' ∧
      (∀ e ∈ E, σ'.edges.find? e.1 =
        if σ.key? e.2.source = some (.static l) ∧ σ.key? e.2.target = some (.static l) ∧ e.2.source ≠ e.2.target then
          some (offeredE (σ.edges.find? e.1) e.2) else σ.edges.find? e.1) ∧
      (∀ k, k ∉ E.map Prod.fst → σ'.edges.find? k = σ.edges.find? k) ∧
      σ'.nodes = σ.nodes ∧ σ'.marks = σ.marks ∧ σ'.dyn = σ.dyn ∧ σ'.layerIds = σ.layerIds ∧ σ'.mesh = σ.mesh ∧
      (∀ k, σ.edges.contains k = true → σ'.edges.contains k = true) := by
  induction E generalizing x σ with
  | nil => exact ⟨x, σ, rfl, Adv.refl _ h, hw, by simp, by simp, rfl, rfl, rfl, rfl, rfl, fun _ h => h⟩
  | cons e E ih =>
    obtain ⟨k, e⟩ := e
    obtain ⟨q1, q2⟩ := hE (k, e) List.mem_cons_self
    simp only at q1 q2
    obtain ⟨x1, hx1, hA⟩ := h.updateEdge hw q1 q2
    have hw1 := hw.offerEdge l e
    simp only [List.map_cons, List.nodup_cons] at hnd
    obtain ⟨b1, b2, b3, b4, b5⟩ := Spec.offerEdge_rest (σ := σ) l e
    have hne : ∀ e' ∈ E, k ≠ e'.1 := fun e he h' => hnd.1 (h' ▸ List.mem_map_of_mem he)
    have hkey : ∀ n, (σ.offerEdge l e).key? n = σ.key? n := fun n => by simp [Spec.key?, b1]
    have hother : ∀ k', k ≠ k' → (σ.offerEdge l e).edges.find? k' = σ.edges.find? k' := by
      intro k' hk'
      rw [Spec.offerEdge_find, ← q1, if_neg hk']
      simp
    have hcon : ∀ k', σ.edges.contains k' = true → (σ.offerEdge l e).edges.contains k' = true := by
      intro k' hk'
      obtain ⟨i, hi⟩ := OMap.contains_eq_true.1 hk'
      refine OMap.contains_eq_true.2 ?_
      rw [Spec.offerEdge_find]
      split
      · split
        · exact ⟨_, rfl⟩
        · exact ⟨i, hi⟩
      · exact ⟨i, hi⟩
    obtain ⟨y, σ', a0, a1, a2, a3, a4, a5, a6, a7, a8, a9, a10⟩ := ih (x := x1) (σ := σ.offerEdge l e) hA.r hw1 hnd.2 (by
      intro e' he'
      obtain ⟨r1, r2⟩ := hE e' (List.mem_cons_of_mem _ he')
      refine ⟨r1, fun hh => r2 ?_⟩
      unfold Spec.hasEdge at *
      rw [← r1] at hh ⊢
      obtain ⟨i, hi⟩ := OMap.contains_eq_true.1 hh
      rw [hother _ (hne e' he')] at hi
      exact OMap.contains_eq_true.2 ⟨i, hi⟩)
    refine ⟨y, σ', by rw [foldRes_cons, hx1]; exact a0, ?_, a2, ?_, ?_, a5.trans b1, a6.trans b2, a7.trans b3, a8.trans b4, a9.trans b5,
      fun k' hk' => a10 k' (hcon k' hk')⟩
    · exact hA.trans_mono a1 (View.mono_of_nodes h hA.r (fun n k h => by rw [hkey]; exact h))
        (View.mono_of_nodes hA.r a1.r (fun n k h => by rw [Spec.key?, a5]; exact h))
        (View.mono_of_edges h hA.r hw (fun n k h => by rw [hkey]; exact h) hcon)
        (View.mono_of_edges hA.r a1.r hw1 (fun n k h => by rw [Spec.key?, a5]; exact h) a10)
    · intro e' he'
      rcases List.mem_cons.1 he' with rfl | he'
      · rw [a4 _ hnd.1, Spec.offerEdge_find]
        simp only [q1, if_true]
      · rw [a3 e' he', hkey, hkey, hother _ (hne e' he')]
    · intro k' hk'
      simp only [List.map_cons, List.mem_cons, not_or] at hk'
      rw [a4 k' hk'.2, hother k' (Ne.symm hk'.1)]

end

/-! ## A source layer with edges -/

/-- `y` is `x` with the extra siblings `S`. -/
structure Layer.Ahead (S : NodeId → NodeId → Bool) (x y : Layer) : Prop where
  id : y.id = x.id
  status : y.status = x.status
  edges : y.edges = x.edges
  dom : ∀ n, (y.nodes.find? n).isSome = (x.nodes.find? n).isSome
  node : ∀ n a b, x.nodes.find? n = some a → y.nodes.find? n = some b → b = { a with siblings := b.siblings } ∧
    ∀ m, b.siblings.contains m = (a.siblings.contains m || S n m)

theorem Layer.Ahead.done {S : NodeId → NodeId → Bool} {x y : Layer} (h : x.Ahead S y) (hS : ∀ n m, S n m = false) : y = x := by
  obtain ⟨h1, h2, h3, h4, h5⟩ := h
  have : y.nodes = x.nodes := by
    refine OMap.ext (fun n => ?_)
    have := h4 n
    cases hx : x.nodes.find? n with
    | none => rw [hx] at this; simpa using this
    | some a =>
      rw [hx] at this
      obtain ⟨b, hb⟩ := Option.isSome_iff_exists.1 this
      obtain ⟨c1, c2⟩ := h5 n a b hx hb
      rw [hb]
      have : b.siblings = a.siblings := OMap.set_ext (fun m => by rw [c2, hS]; simp)
      rw [c1, this]
  cases x; cases y
  simp only at *
  subst h1 h2 h3 this
  rfl

theorem Layer.Ahead.hasNode {S : NodeId → NodeId → Bool} {x y : Layer} (h : x.Ahead S y) (n : NodeId) : y.hasNode n = x.hasNode n := h.dom n

theorem Layer.Ahead.mono {S S' : NodeId → NodeId → Bool} {x y : Layer} (h : x.Ahead S y) (hS : ∀ n m, x.hasNode n = true → S' n m = S n m) : x.Ahead S' y :=
  ⟨h.id, h.status, h.edges, h.dom, fun n a b ha hb => ⟨(h.node n a b ha hb).1, fun m => by
    rw [(h.node n a b ha hb).2, hS n m (OMap.contains_eq_true.2 ⟨a, ha⟩)]⟩⟩

theorem Layer.insertEdge_form {x : Layer} {s t : NodeId} {a b : Node} (hne : s ≠ t) (he : x.hasEdge s t = false) (ha : x.nodes.find? s = some a)
    (hb : x.nodes.find? t = some b) (i : Option EdgeAttrs) :
    x.insertEdge s t i = .ok ({ x with nodes := (x.nodes.insert s { a with siblings := a.siblings.add t }).insert t { b with siblings := b.siblings.add s },
                                       edges := x.edges.insert s t i }, true) := by
  have h1 : x.hasNode s = true := OMap.contains_eq_true.2 ⟨a, ha⟩
  have h2 : x.hasNode t = true := OMap.contains_eq_true.2 ⟨b, hb⟩
  unfold Layer.insertEdge
  simp only [hne, if_false, he, Bool.false_eq_true, h1, h2, Bool.not_true, Layer.modNode, ha, Res.bind_ok, OMap.find?_insert, hb]
  rfl

/-- Edge loop with extra siblings: when all listed, they are made good. -/
theorem Layer.updateEdges_ahead (E : List (EdgeKey × Edge)) {S : NodeId → NodeId → Bool} {x y z : Layer}
    (h : x.Ahead (fun n m => S n m && E.any (fun e => e.1 == EdgeKey.of n m)) y)
    (hnd : (E.map Prod.fst).Nodup) (hkey : ∀ e ∈ E, e.1 = EdgeKey.of e.2.source e.2.target)
    (hin : ∀ n m, S n m = true → n ≠ m ∧ x.hasNode n = true ∧ x.hasNode m = true ∧
      (∀ e ∈ E, e.1 = EdgeKey.of n m → x.hasEdge n m = false))
    (hx : foldRes Layer.updateEdge x E = .ok z) : foldRes Layer.updateEdge y E = .ok z := by
  induction E generalizing x y with
  | nil =>
    have := h.done (by simp)
    subst this
    exact hx
  | cons e E ih =>
    obtain ⟨k, e⟩ := e
    have hk : k = EdgeKey.of e.source e.target := hkey (k, e) List.mem_cons_self
    simp only [List.map_cons, List.nodup_cons] at hnd
    rw [foldRes_cons] at hx ⊢
    obtain ⟨x1, hx1, hx2⟩ := bind_eq_ok hx
    have hhe : ∀ s t, y.hasEdge s t = x.hasEdge s t := fun s t => by unfold Layer.hasEdge; rw [h.edges]
    have hnotE : ∀ e' ∈ E, k ≠ e'.1 := fun e he h' => hnd.1 (h' ▸ List.mem_map_of_mem he)
    -- it suffices to make the step
    suffices hs : ∃ y1, y.updateEdge (k, e) = .ok y1 ∧ x1.Ahead (fun n m => S n m && E.any (fun e => e.1 == EdgeKey.of n m)) y1 ∧
        (∀ n, x1.hasNode n = x.hasNode n) ∧ (∀ n m, EdgeKey.of n m ≠ k → x1.hasEdge n m = x.hasEdge n m) by
      obtain ⟨y1, hy1, ha, hn, hhe1⟩ := hs
      rw [hy1, Res.bind_ok]
      refine ih ha hnd.2 (fun e he => hkey e (List.mem_cons_of_mem _ he)) ?_ hx2
      intro n m hS
      obtain ⟨c1, c2, c3, c4⟩ := hin n m hS
      refine ⟨c1, by rw [hn]; exact c2, by rw [hn]; exact c3, ?_⟩
      intro e' he' hke
      rw [hhe1 n m (by rw [← hke]; exact Ne.symm (hnotE e' he'))]
      exact c4 e' (List.mem_cons_of_mem _ he') hke
    -- when the edge is not inserted the pair is not one of the extra ones
    have hdrop : ∀ {x' y' : Layer}, x'.nodes = x.nodes → y'.nodes = y.nodes → x'.id = x.id → y'.id = y.id → x'.status = x.status → y'.status = y.status →
        y'.edges = x'.edges → (∀ n m, S n m = true → EdgeKey.of n m ≠ k) →
        x'.Ahead (fun n m => S n m && E.any (fun e => e.1 == EdgeKey.of n m)) y' := by
      intro x' y' e1 e2 e3 e4 e5 e6 e7 hno
      refine ⟨by rw [e4, e3, h.id], by rw [e6, e5, h.status], e7, by intro n; rw [e1, e2]; exact h.dom n, ?_⟩
      intro n a b ha hb
      rw [e1] at ha
      rw [e2] at hb
      obtain ⟨c1, c2⟩ := h.node n a b ha hb
      refine ⟨c1, fun m => ?_⟩
      rw [c2]
      cases hS : S n m with
      | false => rfl
      | true =>
        have : (k == EdgeKey.of n m) = false := by simpa using Ne.symm (hno n m hS)
        simp only [List.any_cons, this, Bool.false_or]
    unfold Layer.updateEdge at hx1 ⊢
    rw [hhe]
    cases hc : x.hasEdge e.source e.target with
    | true =>
      simp only [hc, if_true] at hx1 ⊢
      rw [h.edges]
      cases hf : x.edges.edges.find? k with
      | none => rw [hf] at hx1; cases hx1
      | some old =>
        rw [hf] at hx1
        simp only [Res.at?_some, Res.bind_ok, Res.pure_eq, Res.ok.injEq] at hx1 ⊢
        refine ⟨_, rfl, ?_, ?_, ?_⟩
        · rw [← hx1]
          refine hdrop rfl rfl rfl rfl rfl rfl rfl ?_
          intro n m hS hkk
          have := (hin n m hS).2.2.2 (k, e) List.mem_cons_self hkk.symm
          unfold Layer.hasEdge EdgeContainer.contains at this hc
          rw [hkk, hk, hc] at this
          cases this
        · intro n; rw [← hx1]; rfl
        · intro n m hnm
          rw [← hx1]
          unfold Layer.hasEdge EdgeContainer.contains
          rw [OMap.contains_insert]
          simp [Ne.symm hnm]
    | false =>
      simp only [hc, Bool.false_eq_true, if_false] at hx1 ⊢
      by_cases hall : e.source ≠ e.target ∧ x.hasNode e.source = true ∧ x.hasNode e.target = true
      · obtain ⟨hne, hs, ht⟩ := hall
        obtain ⟨a, ha⟩ := OMap.contains_eq_true.1 hs
        obtain ⟨b, hb⟩ := OMap.contains_eq_true.1 ht
        obtain ⟨a', ha'⟩ := OMap.contains_eq_true.1 ((h.hasNode e.source).trans hs)
        obtain ⟨b', hb'⟩ := OMap.contains_eq_true.1 ((h.hasNode e.target).trans ht)
        rw [Layer.insertEdge_form hne hc ha hb] at hx1
        rw [Layer.insertEdge_form hne ((hhe _ _).trans hc) ha' hb']
        simp only [Res.bind_ok, Res.pure_eq, Res.ok.injEq] at hx1 ⊢
        obtain ⟨p1, p2⟩ := h.node _ _ _ ha ha'
        obtain ⟨q1, q2⟩ := h.node _ _ _ hb hb'
        refine ⟨_, rfl, ⟨?_, ?_, ?_, ?_, ?_⟩, ?_, ?_⟩
        · rw [← hx1]; exact h.id
        · rw [← hx1]; exact h.status
        · rw [← hx1]; simp only [h.edges]
        · intro n
          rw [← hx1]
          simp only [OMap.find?_insert]
          split
          · rfl
          · split
            · rfl
            · exact h.dom n
        · intro n c d hxc hyd
          rw [← hx1] at hxc
          simp only [OMap.find?_insert] at hxc hyd
          split at hxc
          · rename_i htn
            subst htn
            simp only [if_true] at hyd
            cases hxc
            cases hyd
            refine ⟨by rw [q1], fun m => ?_⟩
            simp only [OMap.contains_add, q2, List.any_cons]
            have : (k == EdgeKey.of e.target m) = decide (e.source = m) := by
              rw [hk, EdgeKey.of_comm e.source e.target]
              rw [Bool.eq_iff_iff]
              simp only [beq_iff_eq, decide_eq_true_eq, EdgeKey.of_inj]
              constructor
              · rintro (⟨-, h⟩ | ⟨h, h'⟩)
                · exact h
                · rw [h', h]
              · intro h; exact .inl ⟨trivial, h⟩
            rw [this]
            by_cases hm : e.source = m
            · simp [hm]
            · simp [hm]
          · rename_i htn
            rw [if_neg htn] at hyd
            split at hxc
            · rename_i hsn
              subst hsn
              simp only [if_true] at hyd
              cases hxc
              cases hyd
              refine ⟨by rw [p1], fun m => ?_⟩
              simp only [OMap.contains_add, p2, List.any_cons]
              have : (k == EdgeKey.of e.source m) = decide (e.target = m) := by
                rw [hk, Bool.eq_iff_iff]
                simp only [beq_iff_eq, decide_eq_true_eq, EdgeKey.of_inj]
                constructor
                · rintro (⟨-, h⟩ | ⟨h, h'⟩)
                  · exact h
                  · rw [h', h]
                · intro h; exact .inl ⟨trivial, h⟩
              rw [this]
              by_cases hm : e.target = m
              · simp [hm]
              · simp [hm]
            · rename_i hsn
              rw [if_neg hsn] at hyd
              obtain ⟨c1, c2⟩ := h.node n c d hxc hyd
              refine ⟨c1, fun m => ?_⟩
              rw [c2]
              have : (k == EdgeKey.of n m) = false := by
                rw [hk, beq_eq_false_iff_ne, ne_eq, EdgeKey.of_inj]
                rintro (⟨h, -⟩ | ⟨-, h⟩)
                · exact hsn h
                · exact htn h
              simp only [List.any_cons, this, Bool.false_or]
        · intro n
          rw [← hx1]
          unfold Layer.hasNode
          simp only [OMap.contains_insert]
          by_cases h1 : e.target = n
          · subst h1; simp; exact ht
          · by_cases h2 : e.source = n
            · subst h2; simp [h1]; exact hs
            · simp [h1, h2]
        · intro n m hnm
          rw [← hx1]
          unfold Layer.hasEdge EdgeContainer.contains EdgeContainer.insert
          simp only
          rw [Bool.eq_iff_iff, OMap.contains_eq_true, OMap.contains_eq_true, OMap.find?_emplace, if_neg (by rw [← hk]; exact Ne.symm hnm)]
      · have hno : ∀ (z : Layer), (∀ s t, z.hasEdge s t = x.hasEdge s t) → (∀ n, z.hasNode n = x.hasNode n) →
            z.insertEdge e.source e.target e.info = .ok (z, false) := by
          intro z h1 h2
          unfold Layer.insertEdge
          rw [h1, hc, h2, h2]
          by_cases h3 : e.source = e.target
          · simp [h3]
          · cases h4 : x.hasNode e.source with
            | false => simp [h3]
            | true =>
              cases h5 : x.hasNode e.target with
              | false => simp [h3]
              | true => exact (hall ⟨h3, h4, h5⟩).elim
        rw [hno x (fun _ _ => rfl) (fun _ => rfl)] at hx1
        rw [hno y hhe h.hasNode]
        simp only [Res.bind_ok, Res.pure_eq, Res.ok.injEq] at hx1 ⊢
        subst hx1
        refine ⟨_, rfl, ?_, fun _ => rfl, fun _ _ _ => rfl⟩
        refine hdrop rfl rfl rfl rfl rfl rfl h.edges ?_
        intro n m hS hkk
        obtain ⟨c1, c2, c3, -⟩ := hin n m hS
        rw [hk, EdgeKey.of_inj] at hkk
        rcases hkk with ⟨rfl, rfl⟩ | ⟨rfl, rfl⟩
        · exact hall ⟨c1, c2, c3⟩
        · exact hall ⟨Ne.symm c1, c3, c2⟩


/-- a node record without its siblings -/
def stripE (e : NodeId × Node) : NodeId × Node := (e.1, { e.2 with siblings := ∅ })

/-- Node loop with extra siblings. -/
theorem Layer.updateNodes_ahead (N : List (NodeId × Node)) {S : NodeId → NodeId → Bool} {x y : Layer} {lk : OMap NodeId LayerKey}
    (h : x.Ahead S y) (hnd : (N.map Prod.fst).Nodup)
    (hN : ∀ e ∈ N, x.hasNode e.1 = false → ∀ m, e.2.siblings.contains m = S e.1 m) :
    ((N.map stripE).foldl Layer.updateNode (x, lk)).1.Ahead S (N.foldl Layer.updateNode (y, lk)).1 ∧
    (N.foldl Layer.updateNode (y, lk)).2 = ((N.map stripE).foldl Layer.updateNode (x, lk)).2 ∧
    ∀ k, ((N.map stripE).foldl Layer.updateNode (x, lk)).1.hasEdge k = x.hasEdge k := by
  induction N generalizing x y lk with
  | nil => exact ⟨h, rfl, fun _ => rfl⟩
  | cons e N ih =>
    obtain ⟨n, v⟩ := e
    simp only [List.map_cons, List.nodup_cons] at hnd
    have hne : ∀ e ∈ N, n ≠ e.1 := fun e he h' => hnd.1 (h' ▸ List.mem_map_of_mem he)
    simp only [List.map_cons, List.foldl_cons]
    unfold Layer.updateNode
    have hd := h.dom n
    cases hx : x.nodes.find? n with
    | some a =>
      rw [hx] at hd
      obtain ⟨b, hb⟩ := Option.isSome_iff_exists.1 hd
      obtain ⟨p1, p2⟩ := h.node n a b hx hb
      simp only [stripE, hx, hb]
      refine ih ⟨h.id, h.status, h.edges, ?_, ?_⟩ hnd.2 ?_
      · intro m
        simp only [OMap.find?_insert]
        split
        · rfl
        · exact h.dom m
      · intro m c d hc hd'
        simp only [OMap.find?_insert] at hc hd'
        split at hc
        · rename_i hnm
          subst hnm
          simp only [if_true] at hd'
          cases hc; cases hd'
          exact ⟨by rw [p1], p2⟩
        · rename_i hnm
          rw [if_neg hnm] at hd'
          exact h.node m c d hc hd'
      · intro e he hf
        refine hN e (List.mem_cons_of_mem _ he) ?_
        unfold Layer.hasNode at hf ⊢
        simp only [OMap.contains_insert] at hf
        simpa [hne e he] using hf
    | none =>
      rw [hx] at hd
      have hy : y.nodes.find? n = none := by simpa using hd
      simp only [stripE, hx, hy, h.id]
      refine ih ⟨rfl, by simp only [h.status], h.edges, ?_, ?_⟩ hnd.2 ?_
      · intro m
        simp only [OMap.find?_insert]
        split
        · rfl
        · exact h.dom m
      · intro m c d hc hd'
        simp only [OMap.find?_insert] at hc hd'
        split at hc
        · rename_i hnm
          subst hnm
          simp only [if_true] at hd'
          cases hc; cases hd'
          refine ⟨rfl, fun m => ?_⟩
          rw [hN (n, v) List.mem_cons_self (OMap.contains_eq_false.2 hx)]
          rfl
        · rename_i hnm
          rw [if_neg hnm] at hd'
          exact h.node m c d hc hd'
      · intro e he hf
        refine hN e (List.mem_cons_of_mem _ he) ?_
        unfold Layer.hasNode at hf ⊢
        simp only [OMap.contains_insert] at hf
        simpa [hne e he] using hf

section
variable {g : Graph} {σ : Spec}

theorem Graph.withLayer_self {l : LayerId} {x : Layer} (hx : g.layers.find? l = some x) : g.withLayer l (x, g.lookup) = g := by
  unfold Graph.withLayer
  rw [OMap.insert_of_find? hx]

/-- The whole call. -/
theorem R.updateFromLayer (h : R g σ) (hw : SWF σ) {L : Layer} {es : Option (OMap EdgeKey Edge)} (hlay : g.hasLayer L.id = true)
    (hl : L.id ≠ UNKNOWN_LAYER) (hL : L.Offers g es) (hes : ∀ t, es = some t → EdgeTable g t)
    (hhome : ∀ n, L.hasNode n = true → g.getLayerForNode n = none ∨ g.getLayerForNode n = some (.static L.id)) :
    ∃ g' σ', g.updateFromLayer L es = .ok (g', L.reset, true) ∧ Adv .deleted g.view g'.view σ' ∧ SWF σ' ∧
      (∀ n x a, L.findNode n = some x → x.attrs = some a → σ'.nodes.find? n = some (offered L.id (σ.nodes.find? n) x.timestamp a)) ∧
      (∀ n, L.hasNode n = false → σ'.nodes.find? n = σ.nodes.find? n) ∧
      (∀ k e, (es.getD ∅).find? k = some e → σ'.edges.find? k =
        if σ'.key? e.source = some (.static L.id) ∧ σ'.key? e.target = some (.static L.id) ∧ e.source ≠ e.target then
          some (offeredE (σ.edges.find? k) e) else σ.edges.find? k) ∧
      (∀ k, (es.getD ∅).find? k = none → σ'.edges.find? k = σ.edges.find? k) ∧
      σ'.marks = σ.marks ∧ σ'.dyn = σ.dyn ∧ σ'.layerIds = σ.layerIds ∧ σ'.mesh = σ.mesh := by
  obtain ⟨x, hx⟩ := OMap.contains_eq_true.1 (show g.layers.contains L.id = true from hlay)
  have hself := Graph.withLayer_self hx
  have h0 : R (g.withLayer L.id (x, g.lookup)) σ := by rw [hself]; exact h
  have hkeys : ∀ n, g.getLayerForNode n = σ.key? n := h.getLayerForNode
  have hhas : ∀ n, g.hasNode n = false ↔ σ.key? n = none := by
    intro n; rw [h.hasNode, Spec.contains_of_key?]; simp
  have hnd : (L.nodes.toList.map Prod.fst).Nodup := L.nodes.keys_nodup
  have hnd' : ((L.nodes.toList.map stripE).map Prod.fst).Nodup := by
    rw [List.map_map]; exact hnd
  have hmem : ∀ e, e ∈ L.nodes.toList ↔ L.findNode e.1 = some e.2 := fun e => OMap.mem_toList
  -- the node loop, stripped
  obtain ⟨σ1, a1, a2, a3, a4, a5, a6, a7, a8, a9, a10⟩ := R.updateNodes (L.nodes.toList.map stripE) h0 hw hl hnd' (by
    intro e he
    obtain ⟨e', he', rfl⟩ := List.mem_map.1 he
    have hf := (hmem e').1 he'
    obtain ⟨r1, r2, r3⟩ := hL.record _ _ hf
    refine ⟨r1, r2, r3, ?_, ?_⟩
    · have := hhome e'.1 (OMap.contains_eq_true.2 ⟨_, hf⟩)
      rw [hkeys] at this
      exact this
    · intro hn
      obtain ⟨p1, p2⟩ := hL.plain _ _ hf ((hhas _).2 hn)
      exact ⟨p1, p2, rfl⟩)
  rw [hself] at a1
  -- the extra siblings
  let S : NodeId → NodeId → Bool := fun n m => !x.hasNode n && (match L.nodes.find? n with | some v => v.siblings.contains m | none => false)
  have hSt : ∀ n m, S n m = true → ∃ v, L.findNode n = some v ∧ v.siblings.contains m = true ∧ g.hasNode n = false := by
    intro n m hS
    simp only [S, Bool.and_eq_true, Bool.not_eq_true'] at hS
    obtain ⟨h1, h2⟩ := hS
    cases hv : L.nodes.find? n with
    | none => rw [hv] at h2; cases h2
    | some v =>
      rw [hv] at h2
      refine ⟨v, hv, h2, ?_⟩
      rw [h.hasNode, Spec.contains_of_key?]
      have h3 := h0.withLayer_hasNode n
      simp only [h1] at h3
      have h4 := hhome n (OMap.contains_eq_true.2 ⟨v, hv⟩)
      rw [hkeys] at h4
      rcases h4 with h4 | h4
      · rw [h4]; rfl
      · rw [h4] at h3; simp at h3
  have hahead0 : x.Ahead S x := ⟨rfl, rfl, rfl, fun _ => rfl, fun n a b ha hb => by
    rw [ha] at hb
    cases hb
    refine ⟨rfl, fun m => ?_⟩
    have : x.hasNode n = true := OMap.contains_eq_true.2 ⟨a, ha⟩
    simp [S, this]⟩
  obtain ⟨b1, b2, b3⟩ := Layer.updateNodes_ahead (lk := g.lookup) L.nodes.toList hahead0 hnd (by
    intro e he hf m
    have hv : L.nodes.find? e.1 = some e.2 := (hmem e).1 he
    simp [S, hf, hv])
  have hnodesN : ∀ n w a, L.findNode n = some w → w.attrs = some a → σ1.nodes.find? n = some (offered L.id (σ.nodes.find? n) w.timestamp a) := by
    intro n w a hf ha
    exact a3 (stripE (n, w)) (List.mem_map_of_mem ((hmem (n, w)).2 hf)) a ha
  have hnodesK : ∀ n, L.hasNode n = false → σ1.nodes.find? n = σ.nodes.find? n := by
    intro n hn
    refine a4 n ?_
    rw [List.map_map]
    intro hm
    obtain ⟨e, he, rfl⟩ := List.mem_map.1 hm
    have := (hmem e).1 he
    rw [show L.hasNode ((Prod.fst ∘ stripE) e) = true from OMap.contains_eq_true.2 ⟨_, this⟩] at hn
    cases hn
  have hwith : ∀ st : Layer × OMap NodeId LayerKey, g.withLayer L.id st = { g with layers := g.layers.insert L.id st.1, lookup := st.2 } := fun _ => rfl
  unfold Graph.updateFromLayer
  simp only [hx]
  cases es with
  | none =>
    have hS0 : ∀ n m, S n m = false := by
      intro n m
      rw [Bool.eq_false_iff]
      intro hS
      obtain ⟨v, h1, h2, h3⟩ := hSt n m hS
      obtain ⟨-, ⟨t, e, ht, -⟩, -⟩ := hL.listed n v m h1 h3 h2
      cases ht
    have heq := b1.done hS0
    refine ⟨_, σ1, by simp only [Res.bind_ok]; rfl, ?_, a2, hnodesN, hnodesK, (by intro k e hk; cases hk), (by intro k _; rw [a5]), a6, a7, a8, a9⟩
    rw [heq, b2]
    exact a1
  | some t =>
    have hkt := (hes t rfl).key
    have hmemE : ∀ e, e ∈ t.toList ↔ t.find? e.1 = some e.2 := fun e => OMap.mem_toList
    have hedge1 : ∀ a b, σ1.hasEdge a b = σ.hasEdge a b := by intro a b; unfold Spec.hasEdge; rw [a5]
    obtain ⟨y, σ', c0, c1, c2, c3, c4, c5, c6, c7, c8, c9, c10⟩ := R.updateEdges (x := ((L.nodes.toList.map stripE).foldl Layer.updateNode (x, g.lookup)).1)
      (lk := ((L.nodes.toList.map stripE).foldl Layer.updateNode (x, g.lookup)).2) t.toList a1.r a2 t.keys_nodup (by
        intro e he
        have hf := (hmemE e).1 he
        refine ⟨hkt _ _ hf, fun hh => (hes t rfl).info _ _ hf ?_⟩
        rw [h.hasEdge hw, ← hedge1, hh])
    have hfin : foldRes Layer.updateEdge (L.nodes.toList.foldl Layer.updateNode (x, g.lookup)).1 t.toList = .ok y := by
      refine Layer.updateEdges_ahead (S := S) t.toList (b1.mono ?_) t.keys_nodup (fun e he => hkt _ _ ((hmemE e).1 he)) ?_ c0
      · intro n m _
        cases hS : S n m with
        | false => rfl
        | true =>
          obtain ⟨v, h1, h2, h3⟩ := hSt n m hS
          obtain ⟨-, ⟨t', e, ht, hte⟩, -⟩ := hL.listed n v m h1 h3 h2
          cases ht
          simp only [Bool.true_and, List.any_eq_true]
          exact ⟨_, (hmemE (EdgeKey.of n m, e)).2 hte, by simp⟩
      · intro n m hS
        obtain ⟨v, h1, h2, h3⟩ := hSt n m hS
        obtain ⟨d1, -, d3⟩ := hL.listed n v m h1 h3 h2
        have hin : ∀ u, L.hasNode u = true ∨ g.getLayerForNode u = some (.static L.id) →
            ((L.nodes.toList.map stripE).foldl Layer.updateNode (x, g.lookup)).1.hasNode u = true := by
          intro u hu
          have := R.withLayer_hasNode a1.r u
          rw [this, decide_eq_true_eq]
          by_cases hLu : L.hasNode u = true
          · obtain ⟨w, hw'⟩ := OMap.contains_eq_true.1 hLu
            obtain ⟨aa, haa⟩ := Option.isSome_iff_exists.1 (hL.record u w hw').2.2
            have hn1 := hnodesN u w aa hw' haa
            unfold Spec.key?
            rw [hn1]
            have := hhome u hLu
            rw [hkeys] at this
            unfold Spec.key? at this
            cases hu' : σ.nodes.find? u with
            | none => rfl
            | some i => rw [hu'] at this; simpa [offered] using this
          · rcases hu with hu | hu
            · exact (hLu hu).elim
            · rw [hkeys] at hu
              exact a10 u _ hu
        refine ⟨Ne.symm d1, hin n (.inl (OMap.contains_eq_true.2 ⟨v, h1⟩)), hin m d3, ?_⟩
        intro e _ _
        rw [b3]
        exact h0.withLayer_noEdge hw (.inl (by rw [(hhas n).1 h3]; simp))
    refine ⟨_, σ', by simp only [hfin, Res.bind_ok]; rfl, ?_, c2, ?_, ?_, ?_, ?_, c6.trans a6, c7.trans a7, c8.trans a8, c9.trans a9⟩
    · rw [b2]
      have hkk : ∀ n k, σ1.key? n = some k → σ'.key? n = some k := fun n k hk => by rw [Spec.key?, c5]; exact hk
      exact a1.trans_mono c1 (View.mono_of_nodes h a1.r a10) (View.mono_of_nodes a1.r c1.r hkk)
        (View.mono_of_edges h a1.r hw a10 (by rw [a5]; exact fun _ h => h)) (View.mono_of_edges a1.r c1.r a2 hkk c10)
    · intro n w a hf ha; rw [c5]; exact hnodesN n w a hf ha
    · intro n hn; rw [c5]; exact hnodesK n hn
    · intro k e hk
      have := c3 (k, e) ((hmemE (k, e)).2 hk)
      rw [a5] at this
      have hk' : ∀ n, σ'.key? n = σ1.key? n := fun n => by simp only [Spec.key?, c5]
      rw [hk', hk']
      exact this
    · intro k hk
      rw [c4 k (fun hm => ?_), a5]
      obtain ⟨e, he, rfl⟩ := List.mem_map.1 hm
      have := (hmemE e).1 he
      rw [show t.find? _ = none from hk] at this
      cases this

end
end Verif
