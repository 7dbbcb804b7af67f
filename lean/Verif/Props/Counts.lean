import Verif.Refine.Counts
import Verif.Lemmas.Keeps
import Verif.Props.Sample
/-! # C20: node, edge and layer counts -/

namespace Verif

variable {ids : List LayerId} {ops : List Op} {g : Graph}

/-- **C20.** The counts are the numbers of nodes, of unordered pairs with an edge, and of dynamic layers, in total and split
by whether a node (an endpoint) is dynamic; mesh vertices are added to the node count when asked; `empty()` means neither
nodes nor mesh vertices. -/
theorem C20_counts (h : Reached ids ops g) :
    ∃ (ns : List NodeId) (es : List (NodeId × NodeId)) (ks : List (LayerId × Prefix)),
      ns.Nodup ∧ (∀ n, n ∈ ns ↔ g.hasNode n = true) ∧
      es.Nodup ∧ (∀ a b, (a, b) ∈ es ↔ a < b ∧ g.hasEdge a b = .ok true) ∧
      ks.Nodup ∧ (∀ l p, (l, p) ∈ ks ↔ g.hasDynLayer l p = true) ∧
      g.numNodes false = ns.length ∧
      g.numNodes true = ns.length + (match g.mesh with | none => 0 | some m => m.points.length) ∧
      g.numStaticNodes = (ns.filter (fun n => !g.isDynamic n)).length ∧
      g.numDynamicNodes = (ns.filter (fun n => g.isDynamic n)).length ∧
      g.numEdges = es.length ∧
      g.numStaticEdges = (es.filter (fun e => !(g.isDynamic e.1 || g.isDynamic e.2))).length ∧
      g.numDynamicEdges = (es.filter (fun e => g.isDynamic e.1 || g.isDynamic e.2)).length ∧
      g.numDynamicLayers = ks.length ∧
      (g.isEmpty = true ↔ (∀ n, g.hasNode n = false) ∧ ∀ m, g.mesh = some m → m.points = []) := by
  obtain ⟨hr, hw⟩ := h.rep
  generalize (Spec.init ids).after ops = σ at hr hw
  have hsplit : ∀ {α : Type} (p : α → Bool) (l : List α), (l.filter (fun x => !p x)).length + (l.filter p).length = l.length := by
    intro α p l
    induction l with
    | nil => rfl
    | cons x l ih =>
      simp only [List.filter_cons]
      cases p x <;> simp only [Bool.not_true, Bool.not_false, Bool.false_eq_true, if_true, if_false, List.length_cons] <;> omega
  have hn : g.numStaticNodes + g.numDynamicNodes = σ.nodes.keys.length := by
    rw [hr.numStaticNodes hw, hr.numDynamicNodes hw]; exact hsplit _ _
  have he : g.numStaticEdges + g.numDynamicEdges = σ.edges.keys.length := by
    rw [hr.numStaticEdges hw, hr.numDynamicEdges hw]; exact hsplit _ _
  have hmem : ∀ n, n ∈ σ.nodes.keys ↔ g.hasNode n = true := by
    intro n; rw [OMap.mem_keys, hr.hasNode]
  refine ⟨σ.nodes.keys, σ.edges.keys.map (fun k => (k.k1, k.k2)), g.dyns.toList.flatMap (fun e => e.2.keys.map (fun p => (e.1, p))),
    OMap.keys_nodup _, hmem, ?_, ?_, ?_, ?_, ?_, ?_, ?_, ?_, ?_, ?_, ?_, ?_, ?_⟩
  · rw [List.nodup_iff_pairwise_ne, List.pairwise_map]
    refine (List.nodup_iff_pairwise_ne.1 (OMap.keys_nodup _)).imp ?_
    intro a b hab e
    rw [Prod.mk.injEq] at e
    apply hab
    cases a; cases b; simp_all
  · intro a b
    rw [hr.hasEdge hw]
    simp only [List.mem_map, OMap.mem_keys, Prod.mk.injEq, Res.ok.injEq]
    constructor
    · rintro ⟨k, hk, rfl, rfl⟩
      obtain ⟨e, he⟩ := OMap.contains_eq_true.1 hk
      obtain ⟨h1, h2, _, _⟩ := hw.edge k e he
      have h3 : k = EdgeKey.of k.k1 k.k2 := by
        rw [h1]; unfold EdgeKey.of
        simp only [EdgeKey.mk.injEq, UInt64.lt_iff_toNat_lt]
        grind
      refine ⟨?_, by unfold Spec.hasEdge; rw [← h3]; exact hk⟩
      rw [h1]; unfold EdgeKey.of
      simp only [UInt64.lt_iff_toNat_lt, ne_eq, ← UInt64.toNat_inj] at h2 ⊢
      grind
    · rintro ⟨hab, hh⟩
      refine ⟨EdgeKey.of a b, hh, ?_, ?_⟩ <;>
      · unfold EdgeKey.of
        simp only [UInt64.lt_iff_toNat_lt] at hab ⊢
        grind
  · have := g.dynKeyed_nodup
    rw [Graph.dynKeyed, List.map_flatMap] at this
    simp only [List.map_map, Function.comp_def] at this
    have e : g.dyns.toList.flatMap (fun e => e.2.toList.map (fun x => LayerKey.dyn e.1 x.1)) =
        (g.dyns.toList.flatMap (fun e => e.2.keys.map (fun p => (e.1, p)))).map (fun x => LayerKey.dyn x.1 x.2) := by
      simp [List.map_flatMap, OMap.keys, Function.comp_def]
    rw [e, List.nodup_iff_pairwise_ne, List.pairwise_map] at this
    rw [List.nodup_iff_pairwise_ne]
    exact this.imp (fun h e => h (by rw [e]))
  · intro l p
    simp only [List.mem_flatMap, List.mem_map, Prod.exists, Prod.mk.injEq, OMap.mem_keys]
    unfold Graph.hasDynLayer Graph.dynLayer?
    constructor
    · rintro ⟨l', m, h1, p', h2, rfl, rfl⟩
      rw [OMap.mem_toList.1 h1]
      exact h2
    · intro hh
      cases hm : g.dyns.find? l with
      | none => simp [hm] at hh
      | some m =>
        refine ⟨l, m, OMap.mem_toList.2 hm, p, ?_, rfl, rfl⟩
        simpa [hm, OMap.contains] using hh
  · simp only [Graph.numNodes, Bool.false_eq_true, if_false]
    rw [← hn]; cases g.mesh <;> simp
  · simp only [Graph.numNodes, if_true]
    rw [← hn]; cases g.mesh <;> simp
  · exact hr.numStaticNodes hw
  · exact hr.numDynamicNodes hw
  · rw [Graph.numEdges, he, List.length_map]
  · rw [hr.numStaticEdges hw, List.filter_map, List.length_map]; rfl
  · rw [hr.numDynamicEdges hw, List.filter_map, List.length_map]; rfl
  · simp [Graph.numDynamicLayers, List.length_flatMap]
  · have h0 : g.numNodes true = σ.nodes.keys.length + (match g.mesh with | none => 0 | some m => m.points.length) := by
      simp only [Graph.numNodes, if_true]
      rw [← hn]; cases g.mesh <;> rfl
    simp only [Graph.isEmpty, beq_iff_eq, h0, Nat.add_eq_zero_iff, List.length_eq_zero_iff]
    refine and_congr ?_ ?_
    · rw [List.eq_nil_iff_forall_not_mem]
      simp only [hmem, Bool.not_eq_true]
    · cases g.mesh <;> simp

example : Sample.state.numNodes false = 8 ∧ Sample.state.numStaticNodes = 5 ∧ Sample.state.numDynamicNodes = 3 ∧
    Sample.state.numEdges = 3 ∧ Sample.state.numDynamicEdges = 1 ∧ Sample.state.isEmpty = false := by decide +kernel

/-- A graph without nodes, but with a mesh that has a vertex, is not `empty()`: the default of `numNodes` counts vertices. -/
example : (match Graph.exec [2] [.setMesh (some { points := [⟨0, 0, 0⟩] })] with
    | .ok (g, _) => (g.isEmpty, g.numNodes false) | _ => (true, 7)) = (false, 0) := by decide +kernel

/-- **C20**, layers: the number of layers is the number of distinct layer ids that have a static layer or at least one dynamic
layer; the number of dynamic layers of one id is the number of prefixes with a dynamic layer of that id. -/
theorem C20_layers (h : Reached ids ops g) :
    (∃ ls : List LayerId, ls.Nodup ∧ (∀ l, l ∈ ls ↔ g.hasLayer l = true ∨ ∃ p, g.hasDynLayer l p = true) ∧
      g.numLayers = ls.length) ∧
    ∀ l, ∃ ps : List Prefix, ps.Nodup ∧ (∀ p, p ∈ ps ↔ g.hasDynLayer l p = true) ∧ g.numDynamicLayersOfType l = ps.length := by
  obtain ⟨outs, hrun⟩ := h.run
  have hu : g.DynsUsed := (Graph.DynsUsed.exec ids ops).get _ hrun
  refine ⟨⟨g.layers.keys ++ g.dyns.keys.filter (fun l => !g.layers.contains l), ?_, ?_, ?_⟩, ?_⟩
  · refine List.nodup_append.2 ⟨OMap.keys_nodup _, (OMap.keys_nodup _).filter _, ?_⟩
    intro a ha b hb e
    subst e
    rw [OMap.mem_keys] at ha
    simp [ha] at hb
  · intro l
    simp only [List.mem_append, List.mem_filter, OMap.mem_keys, Graph.hasLayer, Bool.not_eq_true']
    constructor
    · rintro (h1 | ⟨h1, h2⟩)
      · exact Or.inl h1
      · obtain ⟨m, hm⟩ := OMap.contains_eq_true.1 h1
        obtain ⟨p, hp⟩ := hu.used l m hm
        right
        refine ⟨p, ?_⟩
        simp only [Graph.hasDynLayer, Graph.dynLayer?, hm, Option.bind_some]
        exact hp
    · rintro (h1 | ⟨p, hp⟩)
      · exact Or.inl h1
      · cases hc : g.layers.contains l
        · refine Or.inr ⟨?_, rfl⟩
          rw [OMap.contains_eq_true]
          cases hm : g.dyns.find? l with
          | none => simp [Graph.hasDynLayer, Graph.dynLayer?, hm] at hp
          | some m => exact ⟨m, rfl⟩
        · exact Or.inl rfl
  · simp [Graph.numLayers]
  · intro l
    refine ⟨((g.dyns.find? l).getD ∅).keys, OMap.keys_nodup _, ?_, ?_⟩
    · intro p
      rw [OMap.mem_keys]
      unfold Graph.hasDynLayer Graph.dynLayer?
      cases g.dyns.find? l <;> simp [OMap.contains]
    · unfold Graph.numDynamicLayersOfType
      cases g.dyns.find? l with
      | none => rfl
      | some m => simp

/-- Layer 2 is both static and dynamic: counted once; layer 40 is only dynamic: counted once although it has two prefixes. -/
example : (match Graph.exec [2, 3] [.createDyn 2 97, .createDyn 40 97, .createDyn 40 98] with
    | .ok (g, _) => (g.numLayers, g.numDynamicLayersOfType 40, g.numDynamicLayers) | _ => (0, 0, 0)) = (3, 2, 3) := by
  decide +kernel

end Verif
