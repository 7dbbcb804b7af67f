import Verif.Lemmas.Merge16
import Verif.Props.Update
/-! # C18: `mergeGraph` -/

namespace Verif

section
variable {ids ids' : List LayerId} {ops ops' : List Op} {g o : Graph}

/-- **C18.** `mergeGraph` of two reachable graphs that fit together (`Mergeable`) succeeds. The nodes of the result are those of the receiver
updated from the other graph (`NodesMerged`), its edges are those of the receiver and the images of those of the other graph (`EdgesMerged`);
the result could have been built by ordinary calls, so everything proved about reachable graphs holds of it; the other graph stores what it
stored before, and is untouched unless its change logs were to be cleared. -/
theorem C18_mergeGraph (hg : Reached ids ops g) (ho : Reached ids' ops' o) (F : FloatOps) (cfg : MergeConfig) (hM : g.Mergeable o cfg) :
    ∃ g' o' more σ, g.mergeGraph F o cfg = .ok (g', o', true) ∧ g'.NodesMerged g o F cfg ∧ g'.EdgesMerged g o cfg ∧
      Reached ids (ops ++ more) g' ∧ o.Behaves σ ∧ o'.Behaves σ ∧ (cfg.clearRemoved = false → o' = o) := by
  obtain ⟨r0, w0⟩ := hg.rep
  obtain ⟨ro, wo⟩ := ho.rep
  obtain ⟨g', ol, e, hm, ro', hol⟩ := r0.merging (F := F) w0 (Spec.tops_after (Spec.tops_empty rfl) hg.ok) ro wo (Spec.tops_after (Spec.tops_empty rfl) ho.ok) hM
  refine ⟨g', _, _, _, e, hm.nodes, hm.edges, hm.did.does.reached hg, ro.behaves wo, ro'.behaves wo, ?_⟩
  intro hc
  have : ol = o.layers := by
    refine OMap.ext (fun l => ?_)
    rw [hol, hc]
    split
    · cases o.layers.find? l with
      | none => rfl
      | some x => simp [Layer.reported_false]
    · rfl
  rw [this]

/-- **C18.** With `clear_removed`, the other graph no longer reports the removals in the layers the receiver has (nodes that were merged into
others are still reported), and reports those in other layers as before. -/
theorem C18_clears_log (hg : Reached ids ops g) (ho : Reached ids' ops' o) (F : FloatOps) (cfg : MergeConfig) (hM : g.Mergeable o cfg)
    (hc : cfg.clearRemoved = true) {g' o' : Graph} {b : Bool} (e : g.mergeGraph F o cfg = .ok (g', o', b)) (l : LayerId) :
    (g.hasLayer l = true → (∀ n, o'.reportsNode l n ↔ o.mergedAway l n) ∧ ∀ x y, ¬ o'.reportsEdge l x y) ∧
    (g.hasLayer l = false → o'.layers.find? l = o.layers.find? l) := by
  obtain ⟨r0, w0⟩ := hg.rep
  obtain ⟨ro, wo⟩ := ho.rep
  obtain ⟨g1, ol, e1, hm, ro', hol⟩ := r0.merging (F := F) w0 (Spec.tops_after (Spec.tops_empty rfl) hg.ok) ro wo (Spec.tops_after (Spec.tops_empty rfl) ho.ok) hM
  rw [e] at e1
  simp only [Res.ok.injEq, Prod.mk.injEq] at e1
  obtain ⟨-, rfl, -⟩ := e1
  rw [(r0.shows w0).layers]
  constructor
  · intro hl
    have hl' := hol l
    rw [if_pos hl, hc] at hl'
    constructor
    · intro n
      unfold Graph.reportsNode Graph.mergedAway
      rw [show ({ o with layers := ol } : Graph).layers = ol from rfl, hl']
      cases hx : o.layers.find? l with
      | none => simp
      | some x =>
        simp only [Option.map_some, Option.some.injEq, exists_eq_left', Layer.checkNode, Layer.getRemovedNodes, Layer.reported, List.mem_map,
          List.mem_filter, Bool.false_eq_true, if_false, if_true]
        constructor
        · rintro ⟨⟨m, s⟩, ⟨h1, h2⟩, rfl⟩
          have h3 := OMap.mem_toList.1 h1
          rw [OMap.find?_filter, Option.filter_eq_some_iff] at h3
          obtain ⟨h4, h5⟩ := h3
          rw [h4]
          cases s <;> simp_all
        · intro h1
          refine ⟨(n, .merged), ⟨OMap.mem_toList.2 ?_, by simp⟩, rfl⟩
          rw [OMap.find?_filter, Option.filter_eq_some_iff]
          cases hs : x.status.find? n with
          | none => rw [hs] at h1; cases h1
          | some s =>
            rw [hs] at h1
            cases (show s = .merged from h1)
            exact ⟨rfl, by simp⟩
    · rintro a b ⟨x, k, h1, h2, -⟩
      rw [show ({ o with layers := ol } : Graph).layers = ol from rfl, hl'] at h1
      obtain ⟨y, hy, rfl⟩ := Option.map_eq_some_iff.1 h1
      simp only [EdgeContainer.getRemoved, Layer.reported, List.mem_map, List.mem_filter, Bool.false_eq_true, if_false, if_true] at h2
      obtain ⟨⟨k', s⟩, ⟨h3, h4⟩, rfl⟩ := h2
      have h3 := OMap.mem_toList.1 h3
      rw [OMap.find?_filter, Option.filter_eq_some_iff] at h3
      simp_all
  · intro hl
    have hl' := hol l
    rw [if_neg (by rw [hl]; exact Bool.false_ne_true)] at hl'
    exact hl'

/-- **C18, what the configuration means.** The id map takes one step: an id that is in it is replaced by what it says, any other (and every
id if there is no map) stays. Attributes of a layer are updated unless the configuration says no for that very layer. -/
theorem C18_configuration (cfg : MergeConfig) :
    (cfg.previousMerges = none → ∀ n, cfg.getMergedId n = n) ∧
    (∀ m, cfg.previousMerges = some m → ∀ n, (∀ k, m.find? n = some k → cfg.getMergedId n = k) ∧ (m.find? n = none → cfg.getMergedId n = n)) ∧
    (∀ l, cfg.updates l = false ↔ ∃ m, cfg.updateLayerAttributes = some m ∧ m.find? l = some false) := by
  refine ⟨?_, ?_, ?_⟩
  · intro h n; unfold MergeConfig.getMergedId; rw [h]
  · intro m h n
    unfold MergeConfig.getMergedId
    rw [h]
    exact ⟨fun k hk => by simp [hk], fun hk => by simp [hk]⟩
  · intro l
    unfold MergeConfig.updates
    cases h : cfg.updateLayerAttributes with
    | none => simp
    | some m =>
      cases hm : m.find? l with
      | none => simp [hm]
      | some b => cases b <;> simp [hm]

end
end Verif

/-! ## The hypotheses can be met -/

namespace Verif.MergeSample
open Sample

/-- attributes with a position -/
def at_ (x : UInt64) : NodeAttrs := .base { position := ⟨x, 0, 0⟩ }
/-- the trajectory 'b' -/
def pb : Prefix := 0x62000000

/-- The receiver: a trajectory of two nodes; 13 was merged into 10. -/
def mineOps : List Op :=
  [.emplaceNode 2 10 at0, .emplaceNode 2 11 at0, .emplaceNode 2 12 at1, .emplaceNode 2 13 at0, .emplaceNode 3 20 at0, .emplaceNode 3 21 at0,
   .emplaceNode 4 30 at0, .insertEdge 10 11 none, .insertEdge 10 12 none, .insertParentEdge 20 10 none, .insertParentEdge 20 12 none,
   .mergeNodes 13 10, .emplaceDyn 2 pa 100 (at_ 5) true, .emplaceDyn 2 pa 200 (at_ 9) true]
/-- The other graph: one more node in that trajectory, another trajectory, a layer the receiver does not have; 11 and the edge between 10 and
12 were removed. -/
def otherOps : List Op :=
  [.emplaceNode 2 10 at1, .emplaceNode 2 11 at0, .emplaceNode 2 12 at0, .emplaceNode 2 13 at1, .emplaceNode 2 14 at1, .emplaceNode 3 20 at1,
   .emplaceNode 3 22 at0, .emplaceNode 5 40 at0, .insertEdge 10 12 none, .insertEdge 12 13 none, .insertEdge 13 14 none, .insertParentEdge 22 10 none,
   .removeEdge 10 12, .removeNode 11, .emplaceDyn 2 pa 100 (at_ 6) true, .emplaceDyn 2 pa 200 (at_ 7) true, .emplaceDyn 2 pa 300 (at_ 8) true,
   .emplaceDyn 2 pb 10 at1 true, .insertEdge (a 2) 20 none]
def mine : Graph := after [2, 3, 4] mineOps
def other : Graph := after [2, 3, 5] otherOps
theorem mineReached : Reached [2, 3, 4] mineOps mine := after_reached (by decide) (by decide +kernel)
theorem otherReached : Reached [2, 3, 5] otherOps other := after_reached (by decide) (by decide +kernel)

/-- 13 was merged into 10 and 22 into 21. -/
def cfg : MergeConfig := { previousMerges := some (((∅ : OMap NodeId NodeId).insert 13 10).insert 22 21) }
/-- some arithmetic -/
def F : FloatOps := ⟨⟨0, 0, 0⟩, fun x y => ⟨x.x + y.x, x.y + y.y, x.z + y.z⟩, fun x y => ⟨x.x - y.x, x.y - y.y, x.z - y.z⟩⟩

theorem forall_dyn {g : Graph} {P : LayerId → Prefix → DynLayer → Prop} (h : ∀ e ∈ g.dynEntries, P e.1.1 e.1.2 e.2) (l : LayerId) (p : Prefix)
    (d : DynLayer) (hd : g.dynLayer? l p = some d) : P l p d := h ((l, p), d) (Graph.mem_dynEntries.2 hd)

theorem mergeable : mine.Mergeable other cfg where
  home n k k' h1 h2 :=
    Update.forall_find (m := mine.lookup) (P := fun n k => ∀ k' ∈ other.getLayerForNode n, k = k') (by decide +kernel) n k h1 k' h2
  removed l n hl hn := by
    obtain ⟨x, hx, hn⟩ := hn
    have key := Update.forall_find (m := other.layers) (P := fun l x => mine.hasLayer l = true → ∀ n ∈ (x.getRemovedNodes false).2,
      other.hasNode n = false ∧ (mine.getLayerForNode n = none ∨ mine.getLayerForNode n = some (.static l)) ∧
      ∀ e ∈ mine.lookup.toList, mine.hasEdge n e.1 = .ok true → ∀ kn ∈ mine.getLayerForNode n, kn.layer = e.2.layer → kn = e.2) (by decide +kernel)
    obtain ⟨h1, h2, h3⟩ := key l x hx hl n hn
    exact ⟨h1, h2, fun m kn km e1 e2 e3 e4 => (h3 (m, km) (OMap.mem_toList.2 e3) e1 kn e2 e4.symm).symm⟩
  other := forall_dyn (by decide +kernel)
  mine l p d h1 h2 := forall_dyn (g := mine) (P := fun l p d => none ∉ d.nodes ∧ d.next = d.nodes.length) (by decide +kernel) l p d h2
  fresh l p d e i x t h1 h2 h3 h4 h5 := by
    have key := forall_dyn (g := mine) (P := fun l p d => ∀ e ∈ other.dynLayer? l p, ∀ x ∈ e.nodes.drop d.nodes.length, ∀ y ∈ x, ∀ t ∈ y.timestamp,
      d.times.contains t = false) (by decide +kernel)
    refine key l p d h1 e h2 (some x) ?_ x rfl t h5
    rw [List.mem_iff_getElem?]
    exact ⟨i - d.nodes.length, by rw [List.getElem?_drop, ← h4]; congr 1; omega⟩
  map _ n k k' h1 h2 := by
    have key := Update.forall_find (m := other.lookup) (P := fun n k => (∀ k' ∈ mine.getLayerForNode (cfg.getMergedId n), k' = k) ∧
      ∀ k' ∈ other.getLayerForNode (cfg.getMergedId n), k' = k) (by decide +kernel) n k h1
    rcases h2 with h2 | h2
    · exact key.1 k' h2
    · exact key.2 k' h2

example : ∃ g' o' more σ, mine.mergeGraph F other cfg = .ok (g', o', true) ∧ g'.NodesMerged mine other F cfg ∧ g'.EdgesMerged mine other cfg ∧
    Reached [2, 3, 4] (mineOps ++ more) g' ∧ other.Behaves σ ∧ o'.Behaves σ ∧ (cfg.clearRemoved = false → o' = other) :=
  C18_mergeGraph mineReached otherReached F cfg mergeable

/-- the graph after the call -/
def got (r : Res (Graph × Graph × Bool)) : Graph := match r with | .ok r => r.1 | _ => { layerIds := [] }
def result : Graph := got (mine.mergeGraph F other cfg)

example : result.nodeObs 11 = none ∧ result.nodeObs 13 = none ∧ result.nodeObs 40 = none := by decide +kernel
example : result.nodeObs 14 = some ⟨.static 2, none, at1⟩ ∧ result.nodeObs 12 = some ⟨.static 2, none, at0⟩ ∧
    result.nodeObs 10 = some ⟨.static 2, none, at0⟩ := by decide +kernel
example : result.nodeObs (a 1) = some ⟨.dyn 2 pa, some 200, at_ 9⟩ ∧ result.nodeObs (a 2) = some ⟨.dyn 2 pa, some 300, at_ 10⟩ := by decide +kernel
example : result.hasEdge 10 14 = .ok true ∧ result.edgeObs 10 12 = some ⟨12, 10, {}⟩ ∧ result.hasEdge 10 11 = .ok false := by decide +kernel
example : result.hasEdge 21 10 = .ok true ∧ result.hasEdge 20 10 = .ok false ∧ result.hasEdge 20 12 = .ok true ∧ result.hasEdge (a 2) 20 = .ok true := by
  decide +kernel
/-- the other graph after a merge that clears its log -/
example : ∃ g' o' b, mine.mergeGraph F other { cfg with clearRemoved := true } = .ok (g', o', b) ∧ ¬ o'.reportsNode 2 11 ∧ other.reportsNode 2 11 := by
  have hM : mine.Mergeable other { cfg with clearRemoved := true } := { mergeable with map := mergeable.map }
  obtain ⟨g', o', _, _, e, -⟩ := C18_mergeGraph mineReached otherReached F _ hM
  refine ⟨g', o', true, e, ?_, ?_⟩
  · rw [(C18_clears_log mineReached otherReached F _ hM rfl e 2).1 (by decide +kernel) |>.1 11]
    rintro ⟨x, h1, h2⟩
    exact Update.forall_find (m := other.layers) (P := fun l (x : Layer) => l = 2 → x.checkNode 11 ≠ .merged) (by decide +kernel) 2 x h1 rfl h2
  · have : ((other.layers.find? 2).map (fun x => decide (11 ∈ (x.getRemovedNodes false).2))) = some true := by decide +kernel
    obtain ⟨x, h1, h2⟩ := Option.map_eq_some_iff.1 this
    exact ⟨x, h1, of_decide_eq_true h2⟩

/-! ## Limits -/

/-- A trajectory of the other graph that has lost a node: a null pointer is dereferenced. -/
theorem C18_removed_dynamic_node : ∃ ids ops ids' ops' g o, Reached ids ops g ∧ Reached ids' ops' o ∧ g.mergeGraph F o {} = .ub :=
  ⟨[2], [], [2], [.emplaceDyn 2 pa 100 at0 false, .emplaceDyn 2 pa 200 at0 false, .removeNode (a 0)], _, _,
    after_reached (by decide) (by decide +kernel), after_reached (by decide) (by decide +kernel), by decide +kernel⟩

/-- A trajectory of the receiver that has lost a node: likewise. -/
theorem C18_removed_dynamic_node_mine : ∃ ids ops ids' ops' g o, Reached ids ops g ∧ Reached ids' ops' o ∧ g.mergeGraph F o {} = .ub :=
  ⟨[2], [.emplaceDyn 2 pa 100 at0 false, .emplaceDyn 2 pa 200 at0 false, .removeNode (a 0)], [2], [.emplaceDyn 2 pa 100 at0 false], _, _,
    after_reached (by decide) (by decide +kernel), after_reached (by decide) (by decide +kernel), by decide +kernel⟩

/-- A node to be appended whose stamp the receiver's trajectory already has is dropped without notice, and the last node of the receiver is
moved instead. -/
theorem C18_duplicate_stamp : ∃ ids ops ids' ops' g o g', Reached ids ops g ∧ Reached ids' ops' o ∧ g' = got (g.mergeGraph F o {}) ∧
    (g.nodeObs (a 1)).map (fun i => i.attrs.position.x) = some 9 ∧ (g'.nodeObs (a 1)).map (fun i => i.attrs.position.x) = some 11 ∧
    o.hasNode (a 2) = true ∧ g'.hasNode (a 2) = false :=
  ⟨[2], [.emplaceDyn 2 pa 100 (at_ 5) false, .emplaceDyn 2 pa 200 (at_ 9) false],
    [2], [.emplaceDyn 2 pa 100 (at_ 6) false, .emplaceDyn 2 pa 150 (at_ 7) false, .emplaceDyn 2 pa 200 (at_ 8) false], _, _, _,
    after_reached (by decide) (by decide +kernel), after_reached (by decide) (by decide +kernel), rfl, by decide +kernel, by decide +kernel,
    by decide +kernel, by decide +kernel⟩

/-- The layer `l` of the graph has the node `n`. -/
def inLayer? (g : Graph) (l : LayerId) (n : NodeId) : Bool := ((g.layers.find? l).map (fun x => x.hasNode n)).getD false

/-- A node that the two graphs have in different layers ends up in both. -/
theorem C18_node_in_two_layers : ∃ ids ops ids' ops' g o g', Reached ids ops g ∧ Reached ids' ops' o ∧ g' = got (g.mergeGraph F o {}) ∧
    inLayer? g' 2 10 = true ∧ inLayer? g' 3 10 = true ∧ g'.getLayerForNode 10 = some (.static 2) :=
  ⟨[2, 3], [.emplaceNode 2 10 at0], [2, 3], [.emplaceNode 3 10 at1], _, _, _,
    after_reached (by decide) (by decide +kernel), after_reached (by decide) (by decide +kernel), rfl, by decide +kernel, by decide +kernel, by decide +kernel⟩

/-- The removal of an edge between layers is not passed on. -/
theorem C18_interlayer_removal_kept : ∃ ids ops ids' ops' g o g', Reached ids ops g ∧ Reached ids' ops' o ∧ g' = got (g.mergeGraph F o {}) ∧
    EdgeKey.of 10 20 ∈ (o.getRemovedEdges false).2 ∧ g'.hasEdge 10 20 = .ok true :=
  ⟨[2, 3], [.emplaceNode 2 10 at0, .emplaceNode 3 20 at0, .insertEdge 10 20 none],
    [2, 3], [.emplaceNode 2 10 at0, .emplaceNode 3 20 at0, .insertEdge 10 20 none, .removeEdge 10 20], _, _, _,
    after_reached (by decide) (by decide +kernel), after_reached (by decide) (by decide +kernel), rfl, by decide +kernel, by decide +kernel⟩

/-- The parent rule is skipped when the receiver already has the offered edge: a child may keep two parents. -/
theorem C18_two_parents_kept : ∃ ids ops ids' ops' g o g', Reached ids ops g ∧ Reached ids' ops' o ∧ g' = got (g.mergeGraph F o { enforceParent := true }) ∧
    g'.hasEdge 10 20 = .ok true ∧ g'.hasEdge 10 21 = .ok true :=
  ⟨[2, 3], [.emplaceNode 2 10 at0, .emplaceNode 3 20 at0, .emplaceNode 3 21 at0, .insertEdge 10 20 none, .insertEdge 10 21 none],
    [2, 3], [.emplaceNode 2 10 at0, .emplaceNode 3 20 at0, .insertParentEdge 20 10 none], _, _, _,
    after_reached (by decide) (by decide +kernel), after_reached (by decide) (by decide +kernel), rfl, by decide +kernel, by decide +kernel⟩

/-- The id map is followed for one step only: of a chain of merges (13 into 12, 12 into 10), an edge at 13 is lost. -/
theorem C18_chain_of_merges : ∃ ids ops ids' ops' g o g', Reached ids ops g ∧ Reached ids' ops' o ∧
    g' = got (g.mergeGraph F o { previousMerges := some (((∅ : OMap NodeId NodeId).insert 13 12).insert 12 10) }) ∧
    o.hasEdge 13 14 = .ok true ∧ g'.hasNode 10 = true ∧ g'.hasNode 14 = true ∧ g'.hasEdge 10 14 = .ok false ∧ g'.hasEdge 13 14 = .ok false :=
  ⟨[2], [.emplaceNode 2 10 at0, .emplaceNode 2 12 at0, .emplaceNode 2 13 at0, .mergeNodes 13 12, .mergeNodes 12 10],
    [2], [.emplaceNode 2 10 at0, .emplaceNode 2 12 at0, .emplaceNode 2 13 at0, .emplaceNode 2 14 at0, .insertEdge 13 14 none], _, _, _,
    after_reached (by decide) (by decide +kernel), after_reached (by decide) (by decide +kernel), rfl, by decide +kernel, by decide +kernel,
    by decide +kernel, by decide +kernel, by decide +kernel⟩

end Verif.MergeSample
