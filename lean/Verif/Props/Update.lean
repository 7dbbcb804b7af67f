import Verif.Lemmas.Update
import Verif.Props.Clone
/-! # C19: `updateFromLayer` -/

namespace Verif

section
variable {ids : List LayerId} {ops : List Op} {g : Graph}

/-- **C19.** A layer the graph does not have is refused: neither the graph nor the source changes. -/
theorem C19_unknown_layer (L : Layer) (es : Option (OMap EdgeKey Edge)) (h : g.hasLayer L.id = false) :
    g.updateFromLayer L es = .ok (g, L, false) := by
  unfold Graph.updateFromLayer
  rw [show g.layers.find? L.id = none from OMap.contains_eq_false.1 h]

/-- **C19.** `updateFromLayer` writes the nodes of the source layer and the listed edges over the graph, empties the source and leaves
everything else alone; afterwards the graph behaves like an abstract scene graph in every further history. Excluded: a node that the graph
has in *another* layer (`C19_node_in_two_layers`), a source edge at a new node that is not listed (`C19_sibling_without_edge`), an edge
filed under a wrong key (`C19_wrong_key`), null attributes. -/
theorem C19_update (hg : Reached ids ops g) {L : Layer} {es : Option (OMap EdgeKey Edge)} (hlay : g.hasLayer L.id = true)
    (hl : L.id ≠ UNKNOWN_LAYER) (hL : L.Offers g es) (hes : ∀ t, es = some t → EdgeTable g t)
    (hhome : ∀ n, L.hasNode n = true → g.getLayerForNode n = none ∨ g.getLayerForNode n = some (.static L.id)) :
    ∃ g' L' σ', g.updateFromLayer L es = .ok (g', L', true) ∧ g'.UpdatedFrom g L (es.getD ∅) ∧
      L'.id = L.id ∧ L'.nodes = ∅ ∧ L'.status = ∅ ∧ L'.edges.edges = ∅ ∧ g'.Behaves σ' := by
  obtain ⟨hr, hw⟩ := hg.rep
  obtain ⟨g', σ', e, hA, hw', a1, a2, a3, a4, a5, a6, a7, a8⟩ := hr.updateFromLayer hw hlay hl hL hes hhome
  have hr' : R g' σ' := hA.r
  refine ⟨g', L.reset, σ', e, ?_, rfl, rfl, rfl, rfl, hr'.behaves hw'⟩
  have hkey : ∀ n, g'.getLayerForNode n = σ'.key? n := hr'.getLayerForNode
  -- the two ways of naming an edge
  have hends : ∀ a b e, (es.getD ∅).find? (EdgeKey.of a b) = some e → (e.source = a ∧ e.target = b) ∨ (e.source = b ∧ e.target = a) := by
    intro a b e he
    cases es with
    | none => cases he
    | some t =>
      have := (hes t rfl).key _ _ he
      rw [EdgeKey.of_inj] at this
      rcases this with ⟨h1, h2⟩ | ⟨h1, h2⟩
      · exact .inl ⟨h1.symm, h2.symm⟩
      · exact .inr ⟨h2.symm, h1.symm⟩
  refine ⟨⟨?_, ?_, ?_⟩, ?_, ?_, ?_, ?_, ?_, ?_, ?_⟩
  · rw [show g'.layerIds = _ from hr'.layerIds, a7]; exact (show g.layerIds = _ from hr.layerIds).symm
  · rw [show g'.mesh = _ from hr'.mesh, a8]; exact (show g.mesh = _ from hr.mesh).symm
  · intro k
    cases k with
    | static l =>
      have h1 := (hr'.shows hw').layers l
      have h2 := (hr.shows hw).layers l
      rw [a7, ← h2] at h1
      exact h1
    | dyn l p =>
      have h1 := (hr'.shows hw').dyns l p
      have h2 := (hr.shows hw).dyns l p
      rw [a6, ← h2] at h1
      exact h1
  · intro n hn; rw [hr'.nodeObs hw', hr.nodeObs hw]; exact a2 n hn
  · intro n x a i hx ha hi
    rw [hr.nodeObs hw] at hi
    rw [hr'.nodeObs hw', a1 n x a hx ha, hi]
    rfl
  · intro n x a hx ha hi
    rw [hr.nodeObs hw] at hi
    rw [hr'.nodeObs hw', a1 n x a hx ha, hi]
    rfl
  · intro a b he; rw [hr'.edgeObs hw', hr.edgeObs hw]; exact a4 _ he
  · intro a b e w i he hwi hi ka kb
    rw [hr.edgeObs hw] at hi
    have hne : a ≠ b := by
      rintro rfl
      have : ((Spec.init ids).after ops).hasEdge a a = true := OMap.contains_eq_true.2 ⟨i, hi⟩
      rw [hw.hasEdge_self] at this
      cases this
    rw [hkey] at ka kb
    rw [hr'.edgeObs hw', Spec.edge?, a3 _ _ he, show ((Spec.init ids).after ops).edges.find? (EdgeKey.of a b) = some i from hi]
    rcases hends a b e he with ⟨h1, h2⟩ | ⟨h1, h2⟩
    · rw [h1, h2, if_pos ⟨ka, kb, hne⟩]; simp [offeredE, hwi]
    · rw [h1, h2, if_pos ⟨kb, ka, Ne.symm hne⟩]; simp [offeredE, hwi]
  · intro a b e he hn hne ka kb
    rw [hr.edgeObs hw] at hn
    rw [hkey] at ka kb
    rw [hr'.edgeObs hw', Spec.edge?, a3 _ _ he, show ((Spec.init ids).after ops).edges.find? (EdgeKey.of a b) = none from hn]
    rcases hends a b e he with ⟨h1, h2⟩ | ⟨h1, h2⟩
    · rw [h1, h2, if_pos ⟨ka, kb, hne⟩, ← h1, ← h2]; rfl
    · rw [h1, h2, if_pos ⟨kb, ka, Ne.symm hne⟩, ← h1, ← h2]; rfl
  · intro a b e he hno
    rw [hkey, hkey] at hno
    rw [hr'.edgeObs hw', hr.edgeObs hw, Spec.edge?, a3 _ _ he, if_neg]
    · rfl
    · rintro ⟨p1, p2, p3⟩
      rcases hends a b e he with ⟨h1, h2⟩ | ⟨h1, h2⟩
      · rw [h1, h2] at p3
        rw [h1] at p1
        rw [h2] at p2
        rcases hno with hno | hno | hno
        · exact p3 hno
        · exact hno p1
        · exact hno p2
      · rw [h1, h2] at p3
        rw [h1] at p1
        rw [h2] at p2
        rcases hno with hno | hno | hno
        · exact p3 hno.symm
        · exact hno p2
        · exact hno p1

/-- **C19.** The nodes reported as new afterwards are those reported before and those the graph did not have. -/
theorem C19_new_nodes (hg : Reached ids ops g) {L : Layer} {es : Option (OMap EdgeKey Edge)} (hlay : g.hasLayer L.id = true)
    (hl : L.id ≠ UNKNOWN_LAYER) (hL : L.Offers g es) (hes : ∀ t, es = some t → EdgeTable g t)
    (hhome : ∀ n, L.hasNode n = true → g.getLayerForNode n = none ∨ g.getLayerForNode n = some (.static L.id))
    {g' : Graph} {L' : Layer} {b : Bool} (hup : g.updateFromLayer L es = .ok (g', L', b)) (clear : Bool) (n : NodeId) :
    n ∈ (g'.getNewNodes clear).2 ↔ n ∈ (g.getNewNodes clear).2 ∨ (L.hasNode n = true ∧ g.hasNode n = false) := by
  obtain ⟨hr, hw⟩ := hg.rep
  obtain ⟨g1, σ', e, hA, hw', a1, a2, -⟩ := hr.updateFromLayer hw hlay hl hL hes hhome
  rw [hup] at e
  simp only [Res.ok.injEq, Prod.mk.injEq] at e
  obtain ⟨rfl, -, -⟩ := e
  have hr' : R g' σ' := hA.r
  rw [hr'.mem_new, hr.mem_new]
  have hmono : ∀ m k, ((Spec.init ids).after ops).key? m = some k → σ'.key? m = some k := by
    intro m k hk
    by_cases hm : L.hasNode m = true
    · obtain ⟨x, hx⟩ := OMap.contains_eq_true.1 hm
      obtain ⟨a, ha⟩ := Option.isSome_iff_exists.1 (hL.record m x hx).2.2
      obtain ⟨i, hi, hik⟩ := Spec.exists_of_key? hk
      rw [Spec.key?, a1 m x a hx ha, hi, ← hik]
      rfl
    · rw [Spec.key?, a2 m (by simpa using hm)]; exact hk
  have hpres := View.mono_of_nodes hr hr' hmono
  constructor
  · rintro ⟨k, hk⟩
    rw [hA.nlog k n] at hk
    split at hk
    · exact .inl ⟨k, hk⟩
    · rename_i hdiff
      split at hk
      · rename_i hp
        refine .inr ?_
        have hk' : σ'.key? n = some k := by
          rw [RV.node hr', Spec.nodeRec] at hp
          cases hn : σ'.nodes.find? n with
          | none => rw [hn] at hp; cases hp
          | some i =>
            rw [hn] at hp
            simp only [Option.bind_some] at hp
            split at hp
            · rename_i hik; rw [Spec.key?_eq hn, hik]
            · cases hp
        have hno : ((Spec.init ids).after ops).key? n = none := by
          cases ho : ((Spec.init ids).after ops).key? n with
          | none => rfl
          | some k2 =>
            have := hmono n k2 ho
            rw [hk'] at this
            cases this
            obtain ⟨i, hi, hik⟩ := Spec.exists_of_key? ho
            rw [hp] at hdiff
            rw [RV.node hr, Spec.nodeRec_key hi hik] at hdiff
            exact (hdiff rfl).elim
        refine ⟨?_, by rw [hr.hasNode, Spec.contains_of_key?, hno]; rfl⟩
        cases hLn : L.hasNode n with
        | true => rfl
        | false =>
          rw [Spec.key?, a2 n hLn] at hk'
          rw [Spec.key?] at hno
          rw [hno] at hk'
          cases hk'
      · cases hk
  · rintro (⟨k, hk⟩ | ⟨hLn, hno⟩)
    · refine ⟨k, ?_⟩
      have hlive := RV.live hr k n
      rw [hk] at hlive
      have h1 : (g.view.node k n).isSome = true := hlive.symm
      rw [hA.nlog k n, if_pos (by rw [h1, hpres k n h1])]
      exact hk
    · obtain ⟨x, hx⟩ := OMap.contains_eq_true.1 hLn
      obtain ⟨a, ha⟩ := Option.isSome_iff_exists.1 (hL.record n x hx).2.2
      have hno' : ((Spec.init ids).after ops).nodes.find? n = none := by
        rw [hr.hasNode] at hno
        exact OMap.contains_eq_false.1 hno
      have hn' := a1 n x a hx ha
      rw [hno'] at hn'
      refine ⟨.static L.id, ?_⟩
      have h1 : (g'.view.node (.static L.id) n).isSome = true := by
        rw [RV.node hr', Spec.nodeRec_key (k := .static L.id) hn' rfl]; rfl
      have h0 : (g.view.node (.static L.id) n).isSome = false := by
        rw [RV.node hr, Spec.nodeRec, hno']; rfl
      rw [hA.nlog, h0, h1]
      rfl

end

/-! ## The hypotheses can be met -/

namespace Update
open Sample

theorem forall_find {K V : Type} [DecidableEq K] [OKey K] {m : OMap K V} {P : K → V → Prop} (h : ∀ e ∈ m.toList, P e.1 e.2) (k : K) (v : V)
    (hk : m.find? k = some v) : P k v := h (k, v) (OMap.mem_toList.2 hk)

/-- the layer after some calls -/
def got (r : Res (Layer × Bool)) : Layer := match r with | .ok r => r.1 | _ => { id := 0 }

/-- A source layer: one node the graph has, two new ones, and an edge between these. -/
def source : Layer := got (((((({ id := 2 } : Layer).emplaceNode 10 (some at1)).1.emplaceNode 50 (some at0)).1.emplaceNode 51 (some at1)).1).insertEdge 50 51 (some { weight := 3 }))

/-- A table of edges: the edge of the source, one from a new node to an old one, one the graph has, and one that leads out of the layer. -/
def table : OMap EdgeKey Edge :=
  ((((∅ : OMap EdgeKey Edge).insert (EdgeKey.of 50 51) ⟨50, 51, some { weight := 3 }⟩).insert (EdgeKey.of 12 50) ⟨50, 12, none⟩).insert
    (EdgeKey.of 10 12) ⟨10, 12, some { weight := 9 }⟩).insert (EdgeKey.of 10 20) ⟨10, 20, some {}⟩

theorem offers : source.Offers state (some table) where
  record := forall_find (by decide +kernel)
  plain := forall_find (P := fun n (x : Node) => state.hasNode n = false → x.parents = ∅ ∧ x.children = ∅) (by decide +kernel)
  listed n x m hx hn hm := by
    have key : ∀ e ∈ source.nodes.toList, state.hasNode e.1 = false → ∀ s ∈ e.2.siblings.keys,
      s ≠ e.1 ∧ (table.find? (EdgeKey.of e.1 s)).isSome = true ∧ (source.hasNode s = true ∨ state.getLayerForNode s = some (.static source.id)) := by
      decide +kernel
    obtain ⟨h1, h2, h3⟩ := key (n, x) (OMap.mem_toList.2 hx) hn m (OMap.mem_keys.2 hm)
    obtain ⟨e, he⟩ := Option.isSome_iff_exists.1 h2
    exact ⟨h1, ⟨table, e, rfl, he⟩, h3⟩

theorem tableOk : EdgeTable state table where
  key := forall_find (P := fun k (e : Edge) => k = EdgeKey.of e.source e.target) (by decide +kernel)
  info := forall_find (P := fun _ (e : Edge) => state.hasEdge e.source e.target = .ok true → e.info.isSome = true) (by decide +kernel)

theorem home (n : NodeId) (h : source.hasNode n = true) : state.getLayerForNode n = none ∨ state.getLayerForNode n = some (.static source.id) := by
  obtain ⟨x, hx⟩ := OMap.contains_eq_true.1 h
  exact forall_find (P := fun n _ => state.getLayerForNode n = none ∨ state.getLayerForNode n = some (.static source.id)) (by decide +kernel) n x hx

example : ∃ g' L' σ', state.updateFromLayer source (some table) = .ok (g', L', true) ∧ g'.UpdatedFrom state source table ∧
    L'.id = source.id ∧ L'.nodes = ∅ ∧ L'.status = ∅ ∧ L'.edges.edges = ∅ ∧ g'.Behaves σ' :=
  C19_update reached (by decide +kernel) (by decide +kernel) offers (fun t ht => by cases ht; exact tableOk) home

/-- the graph after the call -/
def after' (r : Res (Graph × Layer × Bool)) : Graph := match r with | .ok r => r.1 | _ => { layerIds := [] }

example : (after' (state.updateFromLayer source (some table))).edgeObs 10 12 = some ⟨10, 12, { weight := 9 }⟩ := by decide +kernel
example : (after' (state.updateFromLayer source (some table))).edgeObs 12 50 = some ⟨50, 12, {}⟩ := by decide +kernel
example : (after' (state.updateFromLayer source (some table))).adjObs 50 = some (∅, ((∅ : OSet NodeId).add 12).add 51, ∅) := by decide +kernel
example : (state.updateFromLayer { id := 9 } none) = .ok (state, { id := 9 }, false) := C19_unknown_layer _ _ (by decide +kernel)

/-! ## Limits -/

/-- two nodes joined by an edge -/
def pair : Layer := got (((({ id := 2 } : Layer).emplaceNode 50 (some at0)).1.emplaceNode 51 (some at1)).1.insertEdge 50 51 none)

/-- A source edge that is not listed leaves its mark: the new nodes name each other as siblings, but there is no edge. -/
theorem C19_sibling_without_edge : ∃ ids ops g g', Reached ids ops g ∧ g' = after' (g.updateFromLayer pair none) ∧
    g'.adjObs 50 = some (∅, (∅ : OSet NodeId).add 51, ∅) ∧ g'.hasEdge 50 51 = .ok false :=
  ⟨[2, 3], [], after [2, 3] [], _, after_reached (by decide) (by decide +kernel), rfl, by decide +kernel, by decide +kernel⟩

/-- a layer with the one node 10 -/
def single (l : LayerId) : Layer := (({ id := l } : Layer).emplaceNode 10 (some at1)).1

/-- A node that the graph has in another layer ends up in both: the graph now finds it in the new layer, and the old layer still has it. -/
theorem C19_node_in_two_layers : ∃ ids ops g g', Reached ids ops g ∧ g' = after' (g.updateFromLayer (single 3) none) ∧
    g'.getLayerForNode 10 = some (.static 3) ∧ (∃ l, g'.layerFromKey (.static 2) = .ok l ∧ l.hasNode 10 = true) ∧
    (∃ l, g'.layerFromKey (.static 3) = .ok l ∧ l.hasNode 10 = true) := by
  refine ⟨[2, 3], [.emplaceNode 2 10 at0], after [2, 3] [.emplaceNode 2 10 at0], _, after_reached (by decide) (by decide +kernel), rfl, by decide +kernel, ?_, ?_⟩
  · exact ⟨.static (single 2 |> fun l => { l with nodes := l.nodes.map (fun _ x => { x with attrs := some at0 }) }), by decide +kernel, by decide +kernel⟩
  · exact ⟨.static (single 3), by decide +kernel, by decide +kernel⟩

/-- An edge that is present but filed under another key raises `std::out_of_range` (the source layer is already emptied). -/
theorem C19_wrong_key : ∃ ids ops g L t, Reached ids ops g ∧ g.updateFromLayer L (some t) = .throw .outOfRange :=
  ⟨[2], [.emplaceNode 2 10 at0, .emplaceNode 2 11 at0, .insertEdge 10 11 none], _, { id := 2 }, (∅ : OMap EdgeKey Edge).insert (EdgeKey.of 10 12) ⟨10, 11, some {}⟩,
    after_reached (by decide) (by decide +kernel), by decide +kernel⟩

/-- Unlike `addOrUpdateEdge` and `setEdgeAttributes`, updating an edge this way does not clear its stale mark: it is still swept. -/
theorem C19_updated_edge_still_stale : ∃ ids ops g g' h, Reached ids ops g ∧
    g' = after' (g.updateFromLayer { id := 2 } (some ((∅ : OMap EdgeKey Edge).insert (EdgeKey.of 10 11) ⟨10, 11, some { weight := 4 }⟩))) ∧
    g'.edgeObs 10 11 = some ⟨10, 11, { weight := 4 }⟩ ∧ g'.removeAllStaleEdges = .ok h ∧ h.hasEdge 10 11 = .ok false :=
  ⟨[2], [.emplaceNode 2 10 at0, .emplaceNode 2 11 at0, .insertEdge 10 11 none, .markStale], _, _,
    Sample.got (after' ((after [2] [.emplaceNode 2 10 at0, .emplaceNode 2 11 at0, .insertEdge 10 11 none, .markStale]).updateFromLayer { id := 2 }
      (some ((∅ : OMap EdgeKey Edge).insert (EdgeKey.of 10 11) ⟨10, 11, some { weight := 4 }⟩)))).removeAllStaleEdges,
    after_reached (by decide) (by decide +kernel), rfl, by decide +kernel, by decide +kernel, by decide +kernel⟩

end Update
end Verif
