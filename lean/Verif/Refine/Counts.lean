import Verif.Refine.Run
/-! # Counting nodes and edges -/

namespace Verif

theorem length_eq_of_mem {α : Type} {l l' : List α} (h : l.Nodup) (h' : l'.Nodup) (hm : ∀ a, a ∈ l ↔ a ∈ l') :
    l.length = l'.length := ((List.perm_ext_iff_of_nodup h h').2 hm).length_eq

/-- Splitting a list by the value of a partial function. -/
theorem sum_filter_length {α β : Type} [DecidableEq β] (xs : List α) (f : α → Option β) (K : List β) (hK : K.Nodup) :
    (K.map (fun k => (xs.filter (fun x => decide (f x = some k))).length)).sum =
      (xs.filter (fun x => decide (∃ k ∈ K, f x = some k))).length := by
  induction K with
  | nil => induction xs <;> simp_all
  | cons k K ih =>
    rw [List.nodup_cons] at hK
    rw [List.map_cons, List.sum_cons, ih hK.2]
    clear ih
    induction xs with
    | nil => simp
    | cons x xs ih =>
      simp only [List.filter_cons]
      by_cases h1 : f x = some k
      · have h2 : ¬ ∃ k' ∈ K, f x = some k' := by
          rintro ⟨k', hk', e⟩; rw [h1] at e; cases e; exact hK.1 hk'
        have h3 : ∃ k' ∈ k :: K, f x = some k' := ⟨k, by simp, h1⟩
        rw [decide_eq_true h1, decide_eq_false h2, decide_eq_true h3]
        simp only [if_true, Bool.false_eq_true, if_false, List.length_cons]
        omega
      · have h3 : (∃ k' ∈ k :: K, f x = some k') ↔ ∃ k' ∈ K, f x = some k' := by simp [h1]
        simp only [h1, h3, decide_false, Bool.false_eq_true, if_false]
        by_cases h2 : ∃ k' ∈ K, f x = some k'
        · rw [decide_eq_true h2]; simp only [if_true, List.length_cons]; omega
        · rw [decide_eq_false h2]; simpa only [Bool.false_eq_true, if_false] using ih

namespace Graph
/-- All dynamic layers with their keys. -/
def dynKeyed (g : Graph) : List (LayerKey × DynLayer) :=
  g.dyns.toList.flatMap (fun e => e.2.toList.map (fun e' => (.dyn e.1 e'.1, e'.2)))

theorem dynList_eq (g : Graph) : g.dynList = g.dynKeyed.map Prod.snd := by
  simp [dynList, dynKeyed, List.map_flatMap, Function.comp_def]

theorem mem_dynKeyed {g : Graph} {k : LayerKey} {d : DynLayer} :
    (k, d) ∈ g.dynKeyed ↔ ∃ l p, k = .dyn l p ∧ g.dynLayer? l p = some d := by
  simp only [dynKeyed, List.mem_flatMap, List.mem_map, Prod.exists, Prod.mk.injEq, dynLayer?, Option.bind_eq_some_iff]
  constructor
  · rintro ⟨l, m, h1, p, d', h2, h3, h4⟩
    subst h4
    exact ⟨l, p, h3.symm, m, OMap.mem_toList.1 h1, OMap.mem_toList.1 h2⟩
  · rintro ⟨l, p, h1, m, h2, h3⟩
    exact ⟨l, m, OMap.mem_toList.2 h2, p, d, OMap.mem_toList.2 h3, h1.symm, rfl⟩

theorem dynKeyed_nodup (g : Graph) : (g.dynKeyed.map Prod.fst).Nodup := by
  simp only [dynKeyed, List.map_flatMap, List.map_map, Function.comp_def]
  rw [List.nodup_iff_pairwise_ne, List.pairwise_flatMap]
  constructor
  · intro e _
    have : (e.2.toList.map (fun e' => LayerKey.dyn e.1 e'.1)) = e.2.keys.map (LayerKey.dyn e.1) := by
      simp [OMap.keys, Function.comp_def]
    rw [this, List.pairwise_map]
    exact (List.nodup_iff_pairwise_ne.1 (OMap.keys_nodup e.2)).imp (fun h e => h (by cases e; rfl))
  · have := List.nodup_iff_pairwise_ne.1 (OMap.keys_nodup g.dyns)
    rw [OMap.keys, List.pairwise_map] at this
    refine this.imp ?_
    intro a b hab x hx y hy e
    simp only [List.mem_map] at hx hy
    obtain ⟨x', _, rfl⟩ := hx
    obtain ⟨y', _, rfl⟩ := hy
    rw [LayerKey.dyn.injEq] at e; exact hab e.1
end Graph

variable {g : Graph} {σ : Spec}

/-- ids of the nodes in a layer -/
def Spec.inLayer (σ : Spec) (k : LayerKey) : List NodeId := σ.nodes.keys.filter (fun n => decide (σ.key? n = some k))
/-- keys of the edges at a place -/
def Spec.atPlace (σ : Spec) (c : Place) : List EdgeKey := σ.edges.keys.filter (fun n => decide (σ.placeOf n = some c))

theorem Spec.mem_inLayer {k : LayerKey} {n : NodeId} : n ∈ σ.inLayer k ↔ σ.key? n = some k := by
  simp only [inLayer, List.mem_filter, decide_eq_true_eq, OMap.mem_keys]
  refine ⟨fun h => h.2, fun h => ⟨?_, h⟩⟩
  obtain ⟨i, hi, _⟩ := Spec.exists_of_key? h
  exact OMap.contains_eq_true.2 ⟨i, hi⟩

theorem R.static_size (h : R g σ) {l : LayerId} {x : Layer} (hx : g.layers.find? l = some x) :
    x.nodes.size = (σ.inLayer (.static l)).length := by
  rw [← OMap.length_keys]
  refine length_eq_of_mem (OMap.keys_nodup _) ((OMap.keys_nodup _).filter _) ?_
  intro n
  rw [Spec.mem_inLayer, OMap.mem_keys]
  have hb : g.layerFromKey (.static l) = .ok (.static x) := Graph.layerFromKey_iff.2 (by simp [Graph.layerAt?, hx])
  have h1 := h.layer_hasNode hb n
  have h2 : (BaseLayer.static x).nd n = σ.nodeRec (.static l) n := by
    rw [← h.node, Graph.view_node_of_layerAt? (Graph.layerFromKey_iff.1 hb)]
  simp only [BaseLayer.nd] at h2
  rw [OMap.contains, h2]
  unfold Spec.nodeRec Spec.key?
  cases σ.nodes.find? n with
  | none => simp
  | some i => by_cases e : i.key = .static l <;> simp [e]

theorem R.dyn_size (h : R g σ) (hw : SWF σ) {l : LayerId} {p : Prefix} {d : DynLayer} (hd : g.dynLayer? l p = some d) :
    d.numNodes = (σ.inLayer (.dyn l p)).length := by
  have hb : g.layerAt? (.dyn l p) = some (.dyn d) := by simp [Graph.layerAt?, hd]
  have hi := h.info (.dyn l p) (BaseLayer.info (.dyn d)) (by simp [Graph.view, hb])
  obtain ⟨_, _, _, _, _, ht⟩ := hi
  simp only [BaseLayer.info] at ht
  let f : NodeId → Stamp := fun n => ((σ.nodes.find? n).bind (·.stamp)).getD 0
  have : (σ.inLayer (.dyn l p)).length = ((σ.inLayer (.dyn l p)).map f).length := by simp
  rw [this, DynLayer.numNodes, ← OMap.length_keys]
  have hst : ∀ n, n ∈ σ.inLayer (.dyn l p) → ∃ i t, σ.nodes.find? n = some i ∧ i.key = .dyn l p ∧ i.stamp = some t ∧ f n = t := by
    intro n hn
    rw [Spec.mem_inLayer] at hn
    obtain ⟨i, hi, hk⟩ := Spec.exists_of_key? hn
    obtain ⟨_, _, hs⟩ := hw.dyn n i l p hi hk
    obtain ⟨t, ht⟩ := Option.isSome_iff_exists.1 hs
    exact ⟨i, t, hi, hk, ht, by simp [f, hi, ht]⟩
  refine length_eq_of_mem (OMap.keys_nodup _) ?_ ?_
  · rw [List.nodup_iff_pairwise_ne, List.pairwise_map]
    have hnd : (σ.inLayer (.dyn l p)).Pairwise (· ≠ ·) := List.nodup_iff_pairwise_ne.1 ((OMap.keys_nodup _).filter _)
    refine List.Pairwise.imp_of_mem ?_ hnd
    intro a b ha hb hab e
    obtain ⟨i, t, h1, h2, h3, h4⟩ := hst a ha
    obtain ⟨j, t', h1', h2', h3', h4'⟩ := hst b hb
    exact hab (hw.stamps a b i j l p h1 h1' h2 h2' (by rw [h3, h3', ← h4, ← h4', e]))
  · intro t
    rw [OMap.mem_keys, ht, Spec.hasStamp, List.any_eq_true]
    simp only [List.mem_map, Bool.and_eq_true, beq_iff_eq, Prod.exists, OMap.mem_toList]
    constructor
    · rintro ⟨n, i, h1, h2, h3⟩
      refine ⟨n, ?_, by simp [f, h1, h3]⟩
      rw [Spec.mem_inLayer]; simp [Spec.key?, h1, h2]
    · rintro ⟨n, hn, rfl⟩
      obtain ⟨i, t, h1, h2, h3, h4⟩ := hst n hn
      exact ⟨n, i, h1, h2, by rw [h3, h4]⟩

theorem R.ec_size (h : R g σ) (c : Place) : (g.view.ec c).edges.size = (σ.atPlace c).length := by
  rw [← OMap.length_keys]
  refine length_eq_of_mem (OMap.keys_nodup _) ((OMap.keys_nodup _).filter _) ?_
  intro key
  simp only [Spec.atPlace, List.mem_filter, OMap.mem_keys, decide_eq_true_eq]
  simp only [OMap.contains, (h.ec c).edges key, Spec.edgeRec]
  cases σ.edges.find? key with
  | none => simp
  | some e => by_cases hp : σ.placeOf key = some c <;> simp [hp]

/-- keys of the static layers -/
def Graph.statKeys (g : Graph) : List LayerKey := g.layers.keys.map .static

theorem Graph.statKeys_nodup (g : Graph) : g.statKeys.Nodup := by
  rw [Graph.statKeys, List.nodup_iff_pairwise_ne, List.pairwise_map]
  exact (List.nodup_iff_pairwise_ne.1 (OMap.keys_nodup _)).imp (fun h e => h (by cases e; rfl))

theorem R.mem_statKeys (h : R g σ) (hw : SWF σ) {n : NodeId} {k : LayerKey} (hk : σ.key? n = some k) :
    k ∈ g.statKeys ↔ k.dynamic = false := by
  simp only [Graph.statKeys, List.mem_map, OMap.mem_keys]
  constructor
  · rintro ⟨l, _, rfl⟩; rfl
  · intro hd
    cases k with
    | dyn l p => cases hd
    | static l =>
      refine ⟨l, ?_, rfl⟩
      obtain ⟨b, hb⟩ := h.layerAt? hw hk
      simp only [Graph.layerAt?, Option.map_eq_some_iff] at hb
      obtain ⟨x, hx, _⟩ := hb
      exact OMap.contains_eq_true.2 ⟨x, hx⟩

theorem R.mem_dynKeys (h : R g σ) (hw : SWF σ) {n : NodeId} {k : LayerKey} (hk : σ.key? n = some k) :
    k ∈ g.dynKeyed.map Prod.fst ↔ k.dynamic = true := by
  simp only [List.mem_map, Prod.exists]
  constructor
  · rintro ⟨k', d, hm, rfl⟩
    obtain ⟨l, p, rfl, _⟩ := Graph.mem_dynKeyed.1 hm
    rfl
  · intro hd
    cases k with
    | static l => cases hd
    | dyn l p =>
      obtain ⟨b, hb⟩ := h.layerAt? hw hk
      simp only [Graph.layerAt?, Option.map_eq_some_iff] at hb
      obtain ⟨d, hx, _⟩ := hb
      exact ⟨_, d, Graph.mem_dynKeyed.2 ⟨l, p, rfl, hx⟩, rfl⟩

theorem R.numStaticNodes (h : R g σ) (hw : SWF σ) :
    g.numStaticNodes = (σ.nodes.keys.filter (fun n => !g.isDynamic n)).length := by
  have h1 : g.numStaticNodes = (g.statKeys.map (fun k => (σ.inLayer k).length)).sum := by
    rw [Graph.numStaticNodes, Graph.statKeys, OMap.keys, List.map_map, List.map_map]
    congr 1
    refine List.map_congr_left ?_
    rintro ⟨l, x⟩ hm
    exact h.static_size (OMap.mem_toList.1 hm)
  rw [h1]
  unfold Spec.inLayer
  rw [sum_filter_length _ _ _ g.statKeys_nodup]
  congr 1
  refine List.filter_congr ?_
  intro n hn
  rw [OMap.mem_keys] at hn
  obtain ⟨k, hk⟩ := Spec.key_of_contains hn
  simp only [hk, Option.some.injEq, Graph.isDynamic, h.lookup']
  rw [Bool.eq_iff_iff]
  simp [h.mem_statKeys hw hk]

theorem R.numDynamicNodes (h : R g σ) (hw : SWF σ) :
    g.numDynamicNodes = (σ.nodes.keys.filter (fun n => g.isDynamic n)).length := by
  have h1 : g.numDynamicNodes = ((g.dynKeyed.map Prod.fst).map (fun k => (σ.inLayer k).length)).sum := by
    rw [Graph.numDynamicNodes, Graph.dynList_eq, List.map_map, List.map_map]
    congr 1
    refine List.map_congr_left ?_
    rintro ⟨k, d⟩ hm
    obtain ⟨l, p, rfl, hd⟩ := Graph.mem_dynKeyed.1 hm
    exact h.dyn_size hw hd
  rw [h1]
  unfold Spec.inLayer
  rw [sum_filter_length _ _ _ g.dynKeyed_nodup]
  congr 1
  refine List.filter_congr ?_
  intro n hn
  rw [OMap.mem_keys] at hn
  obtain ⟨k, hk⟩ := Spec.key_of_contains hn
  simp only [hk, Option.some.injEq, Graph.isDynamic, h.lookup']
  have := h.mem_dynKeys hw hk
  rw [Bool.eq_iff_iff]
  rw [decide_eq_true_eq, ← this]
  simp

/-- an edge with a dynamic endpoint -/
def Graph.dynEdge (g : Graph) (k : EdgeKey) : Bool := g.isDynamic k.k1 || g.isDynamic k.k2

theorem R.edge_keys (h : R g σ) (hw : SWF σ) {key : EdgeKey} (hm : key ∈ σ.edges.keys) :
    ∃ a b, σ.key? key.k1 = some a ∧ σ.key? key.k2 = some b ∧ σ.placeOf key = some (place a b) ∧
      g.dynEdge key = (a.dynamic || b.dynamic) := by
  rw [OMap.mem_keys] at hm
  obtain ⟨e, he⟩ := OMap.contains_eq_true.1 hm
  have hk := hw.key_of_edge he
  obtain ⟨a, ha⟩ := Option.isSome_iff_exists.1 hk.1
  obtain ⟨b, hb⟩ := Option.isSome_iff_exists.1 hk.2
  exact ⟨a, b, ha, hb, by simp [Spec.placeOf, ha, hb], by simp [Graph.dynEdge, Graph.isDynamic, h.lookup', ha, hb]⟩

theorem R.numStaticEdges (h : R g σ) (hw : SWF σ) :
    g.numStaticEdges = (σ.edges.keys.filter (fun k => !g.dynEdge k)).length := by
  have h1 : g.numStaticEdges = ((Place.across false :: g.statKeys.map .within).map (fun c => (σ.atPlace c).length)).sum := by
    rw [List.map_cons, List.sum_cons, Graph.numStaticEdges, Graph.statKeys, OMap.keys, List.map_map, List.map_map, List.map_map]
    congr 1
    · exact h.ec_size (.across false)
    · congr 1
      refine List.map_congr_left ?_
      rintro ⟨l, x⟩ hm
      have hx := OMap.mem_toList.1 hm
      have := h.ec_size (.within (.static l))
      rw [h.ecWithin (b := .static x) (by simp [Graph.layerAt?, hx])] at this
      exact this
  rw [h1]
  unfold Spec.atPlace
  rw [sum_filter_length]
  · congr 1
    refine List.filter_congr ?_
    intro key hm
    obtain ⟨a, b, ha, hb, hp, hd⟩ := h.edge_keys hw hm
    simp only [hp, hd, Option.some.injEq]
    rw [Bool.eq_iff_iff]
    simp only [decide_eq_true_eq, exists_eq_right', List.mem_cons, List.mem_map, Bool.not_eq_true', Bool.or_eq_false_iff]
    unfold place
    by_cases e : a = b
    · subst e
      simp [h.mem_statKeys hw ha]
    · simp [e]
  · rw [List.nodup_cons]
    refine ⟨by simp, ?_⟩
    rw [List.nodup_iff_pairwise_ne, List.pairwise_map]
    exact (List.nodup_iff_pairwise_ne.1 g.statKeys_nodup).imp (fun h e => h (by cases e; rfl))

theorem R.numDynamicEdges (h : R g σ) (hw : SWF σ) :
    g.numDynamicEdges = (σ.edges.keys.filter (fun k => g.dynEdge k)).length := by
  have h1 : g.numDynamicEdges =
      ((Place.across true :: (g.dynKeyed.map Prod.fst).map .within).map (fun c => (σ.atPlace c).length)).sum := by
    rw [List.map_cons, List.sum_cons, Graph.numDynamicEdges, Graph.dynList_eq, List.map_map, List.map_map, List.map_map]
    congr 1
    · exact h.ec_size (.across true)
    · congr 1
      refine List.map_congr_left ?_
      rintro ⟨k, d⟩ hm
      obtain ⟨l, p, rfl, hd⟩ := Graph.mem_dynKeyed.1 hm
      have := h.ec_size (.within (.dyn l p))
      rw [h.ecWithin (b := .dyn d) (by simp [Graph.layerAt?, hd])] at this
      exact this
  rw [h1]
  unfold Spec.atPlace
  rw [sum_filter_length]
  · congr 1
    refine List.filter_congr ?_
    intro key hm
    obtain ⟨a, b, ha, hb, hp, hd⟩ := h.edge_keys hw hm
    simp only [hp, hd, Option.some.injEq]
    rw [Bool.eq_iff_iff]
    have hdk := h.mem_dynKeys hw ha
    simp only [decide_eq_true_eq, exists_eq_right', List.mem_cons, Bool.or_eq_true]
    unfold place
    by_cases e : a = b
    · subst e
      simp only [if_true, reduceCtorEq, false_or, or_self]
      rw [← hdk]
      constructor
      · intro hx
        obtain ⟨y, hy, e⟩ := List.mem_map.1 hx
        cases e; exact hy
      · intro hx; exact List.mem_map.2 ⟨a, hx, rfl⟩
    · simp [e]
  · rw [List.nodup_cons]
    refine ⟨by simp, ?_⟩
    rw [List.nodup_iff_pairwise_ne, List.pairwise_map]
    exact (List.nodup_iff_pairwise_ne.1 g.dynKeyed_nodup).imp (fun h e => h (by cases e; rfl))

end Verif
