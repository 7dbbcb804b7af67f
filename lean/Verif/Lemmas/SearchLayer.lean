import Verif.Lemmas.SearchSim
import Verif.Model.LayerApi
import Verif.Refine.Run
/-! # Consistent layers as search graphs -/

namespace Verif
namespace Layer

/-- siblings of a node, as a list -/
def adj (l : Layer) (n : NodeId) : List NodeId := match l.findNode n with
  | some x => x.siblings.keys
  | none => []

variable {l : Layer}

theorem hasNode_iff {n : NodeId} : l.hasNode n = true ↔ ∃ x, l.findNode n = some x := OMap.contains_eq_true
theorem mem_nodes {n : NodeId} : n ∈ l.nodes.keys ↔ l.hasNode n = true := OMap.mem_keys

theorem hasEdge_comm (a b : NodeId) : l.hasEdge a b = l.hasEdge b a := by
  unfold hasEdge EdgeContainer.contains; rw [EdgeKey.of_comm]

namespace Consistent

theorem mem_adj (h : l.Consistent) (a b : NodeId) : b ∈ l.adj a ↔ l.hasEdge a b = true := by
  unfold Layer.adj
  cases hx : l.findNode a with
  | none =>
    simp only [List.not_mem_nil, false_iff]
    intro he
    obtain ⟨x, hx'⟩ := hasNode_iff.1 (h.ends a b he).2.1
    rw [hx] at hx'; cases hx'
  | some x => rw [← h.siblings a x hx b]; exact OMap.mem_keys

theorem neighbors (_h : l.Consistent) {a : NodeId} (ha : a ∈ l.nodes.keys) : l.search.neighbors a = .ok (l.adj a) := by
  obtain ⟨x, hx⟩ := hasNode_iff.1 (mem_nodes.1 ha)
  simp [Layer.search, Layer.adj, hx]

theorem closed (h : l.Consistent) : ∀ a ∈ l.nodes.keys, ∀ b ∈ l.adj a, b ∈ l.nodes.keys := by
  intro a _ b hb
  exact mem_nodes.2 (h.ends a b ((h.mem_adj a b).1 hb)).2.2

theorem walk_iff (h : l.Consistent) {k : Nat} {a b : NodeId} : Walk (fun a b => b ∈ l.adj a) k a b ↔ Walk l.Linked k a b := by
  have : (fun a b => b ∈ l.adj a) = l.Linked := by funext a b; exact propext (h.mem_adj a b)
  rw [this]

theorem linked_eq (h : l.Consistent) : (fun a b => b ∈ l.adj a) = l.Linked := by funext a b; exact propext (h.mem_adj a b)

end Consistent
end Layer

/-- Every static layer of a reached graph is consistent, if its nodes have no edges into dynamic layers of the same layer id. -/
theorem Reached.layer_consistent {ids : List LayerId} {ops : List Op} {g : Graph} (h : Reached ids ops g) {i : LayerId} {l : Layer}
    (hl : g.layerFromKey (.static i) = .ok (.static l)) (hc : ∀ n, l.hasNode n = true → g.CrossFree n) : l.Consistent := by
  obtain ⟨hr, hw⟩ := h.rep
  have hb := Graph.layerFromKey_iff.1 hl
  have hnd : ∀ n, l.findNode n = ((Spec.init ids).after ops).nodeRec (.static i) n := by
    intro n; rw [← hr.node, Graph.view_node_of_layerAt? hb]; rfl
  have hin : ∀ n, l.hasNode n = true ↔ ((Spec.init ids).after ops).key? n = some (.static i) := by
    intro n
    rw [Layer.hasNode_iff, hnd]
    unfold Spec.nodeRec Spec.key?
    cases ((Spec.init ids).after ops).nodes.find? n with
    | none => simp
    | some j =>
      simp only [Option.bind_some, Option.map_some, Option.some.injEq]
      constructor
      · rintro ⟨x, hx⟩; split at hx
        · assumption
        · cases hx
      · intro hj; exact ⟨_, if_pos hj⟩
  have hec : ∀ key, l.edges.edges.find? key = ((Spec.init ids).after ops).edgeRec (.within (.static i)) key := by
    intro key
    rw [← (hr.ec (.within (.static i))).edges key]
    simp [Graph.view, Graph.ecAt?, hb, BaseLayer.ec]
  have hE : ∀ a b, l.hasEdge a b = true ↔ ((Spec.init ids).after ops).hasEdge a b = true ∧ l.hasNode a = true ∧ l.hasNode b = true := by
    intro a b
    rw [hin, hin]
    unfold Layer.hasEdge EdgeContainer.contains Spec.hasEdge
    rw [OMap.contains_eq_true, OMap.contains_eq_true, hec]
    unfold Spec.edgeRec
    have hpl : ((Spec.init ids).after ops).placeOf (EdgeKey.of a b) = some (.within (.static i)) ↔
        ((Spec.init ids).after ops).key? a = some (.static i) ∧ ((Spec.init ids).after ops).key? b = some (.static i) := by
      have key : ∀ a b, (match ((Spec.init ids).after ops).key? a, ((Spec.init ids).after ops).key? b with
          | some x, some y => some (place x y) | _, _ => none) = some (Place.within (.static i)) ↔
          ((Spec.init ids).after ops).key? a = some (.static i) ∧ ((Spec.init ids).after ops).key? b = some (.static i) := by
        intro a b
        cases ((Spec.init ids).after ops).key? a with
        | none => simp
        | some x =>
          cases ((Spec.init ids).after ops).key? b with
          | none => simp
          | some y =>
            simp only [Option.some.injEq, place]
            split
            · rename_i hxy; subst hxy; simp
            · rename_i hxy
              simp only [false_iff, reduceCtorEq]
              rintro ⟨rfl, rfl⟩; exact hxy rfl
      unfold Spec.placeOf
      have : EdgeKey.of a b = ⟨a, b⟩ ∨ EdgeKey.of a b = ⟨b, a⟩ := by
        unfold EdgeKey.of
        by_cases h1 : b < a
        · right; rw [if_pos h1, if_neg (UInt64.not_lt.2 (UInt64.le_of_lt h1))]
        · left
          rw [if_neg h1]
          by_cases h2 : a < b
          · rw [if_pos h2]
          · rw [if_neg h2, UInt64.le_antisymm (UInt64.not_lt.1 h1) (UInt64.not_lt.1 h2)]
      rcases this with hk | hk
      · rw [hk]; exact key a b
      · rw [hk]; rw [show (_ ∧ _ ↔ _ ∧ _) from And.comm]; exact key b a
    cases hf : ((Spec.init ids).after ops).edges.find? (EdgeKey.of a b) with
    | none => simp
    | some e =>
      simp only [Option.bind_some, Option.some.injEq, exists_eq', true_and]
      rw [← hpl]
      constructor
      · rintro ⟨x, hx⟩; split at hx
        · assumption
        · cases hx
      · intro hp; exact ⟨_, if_pos hp⟩
  refine ⟨?_, ?_⟩
  · intro a b he
    obtain ⟨h1, h2, h3⟩ := (hE a b).1 he
    exact ⟨(hw.hasEdge_nodes h1).1, h2, h3⟩
  · intro n x hx m
    have hn := Layer.hasNode_iff.2 ⟨x, hx⟩
    have hkn := (hin n).1 hn
    rw [hE]
    rw [hnd] at hx
    unfold Spec.nodeRec at hx
    cases hf : ((Spec.init ids).after ops).nodes.find? n with
    | none => rw [hf] at hx; cases hx
    | some j =>
      rw [hf] at hx
      simp only [Option.bind_some] at hx
      split at hx
      · rename_i hj
        cases hx
        simp only [Spec.mkNode, Spec.siblings, Spec.contains_nbrs, hj]
        constructor
        · intro hs
          cases hm : ((Spec.init ids).after ops).key? m with
          | none => rw [hm] at hs; simp at hs
          | some km =>
            rw [hm] at hs
            simp [LayerKey.layer] at hs
            obtain ⟨hs2, hs1⟩ := hs
            refine ⟨hs1, hn, ?_⟩
            rw [hin, hm]
            congr 1
            refine hc n hn m (.static i) km ?_ ?_ ?_ ?_
            · rw [hr.hasEdge hw]; exact congrArg Res.ok hs1
            · rw [hr.getLayerForNode]; exact hkn
            · rw [hr.getLayerForNode]; exact hm
            · simp only [LayerKey.layer]; exact hs2
        · rintro ⟨h1, _, h3⟩
          rw [(hin m).1 h3]; simp [h1, LayerKey.layer]
      · cases hx

end Verif
