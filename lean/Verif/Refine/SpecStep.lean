import Verif.Refine.Refused
/-! # What one abstract step can do to a node or an edge -/

namespace Verif
namespace Spec
variable {σ : Spec}

theorem key?_insert (σ : Spec) (n m : NodeId) (i : NodeInfo) :
    (({ σ with nodes := σ.nodes.insert n i }) : Spec).key? m = if n = m then some i.key else σ.key? m := by
  simp only [key?, OMap.find?_insert]; split <;> simp

theorem key?_touch (σ : Spec) (k : EdgeKey) (n : NodeId) : (σ.touch k).key? n = σ.key? n := by
  unfold touch; split <;> rfl
theorem edges_touch (σ : Spec) (k : EdgeKey) : (σ.touch k).edges = σ.edges := by
  unfold touch; split <;> rfl
theorem nodes_touch (σ : Spec) (k : EdgeKey) : (σ.touch k).nodes = σ.nodes := by
  unfold touch; split <;> rfl

theorem nodes_bridge (σ : Spec) (n : NodeId) : (σ.bridge n).nodes = σ.nodes := by
  by_cases hb : σ.bridges n
  · rw [bridge_pos hb]; rfl
  · rw [bridge_neg hb]

theorem nodes_setEdgeAttrs (σ : Spec) (s t : NodeId) (a : EdgeAttrs) : (σ.setEdgeAttrs s t a).1.nodes = σ.nodes := by
  unfold setEdgeAttrs; split
  · rfl
  · exact nodes_touch _ _
theorem nodes_insertEdge (σ : Spec) (s t : NodeId) (a : Option EdgeAttrs) : (σ.insertEdge s t a).1.nodes = σ.nodes := by
  unfold insertEdge; repeat (split; rfl)
  rfl
theorem nodes_insertParentEdge (σ : Spec) (s t : NodeId) (a : Option EdgeAttrs) : (σ.insertParentEdge s t a).1.nodes = σ.nodes := by
  unfold insertParentEdge; split
  · split <;> rfl
  · rfl
theorem nodes_addOrUpdateEdge (σ : Spec) (s t : NodeId) (a : Option EdgeAttrs) : (σ.addOrUpdateEdge s t a).1.nodes = σ.nodes := by
  unfold addOrUpdateEdge; split
  · exact nodes_setEdgeAttrs _ _ _ _
  · exact nodes_insertEdge _ _ _ _
theorem nodes_removeEdge (σ : Spec) (s t : NodeId) : (σ.removeEdge s t).1.nodes = σ.nodes := by
  unfold removeEdge; split <;> rfl
theorem nodes_createDyn (σ : Spec) (l : LayerId) (p : Prefix) : (σ.createDyn l p).1.nodes = σ.nodes := by
  unfold createDyn; split <;> rfl

/-- One step adds a node that was absent, drops nodes, or keeps them; the layer and stamp of a node never change while it
exists. -/
inductive NodeStep (σ σ' : Spec) : Prop
  | same (h : ∀ n, σ'.nodes.find? n = σ.nodes.find? n)
  | attrs (n : NodeId) (i : NodeInfo) (a : NodeAttrs) (h0 : σ.nodes.find? n = some i)
      (h : ∀ m, σ'.nodes.find? m = if n = m then some { i with attrs := a } else σ.nodes.find? m)
  | add (n : NodeId) (i : NodeInfo) (h0 : σ.nodes.find? n = none)
      (h : ∀ m, σ'.nodes.find? m = if n = m then some i else σ.nodes.find? m)
  | drop (n : NodeId) (i : NodeInfo) (h0 : σ.nodes.find? n = some i)
      (h : ∀ m, σ'.nodes.find? m = if n = m then none else σ.nodes.find? m)
  | wipe (h : ∀ n, σ'.nodes.find? n = none)

theorem step_emplaceNode (σ : Spec) (l : LayerId) (n : NodeId) (st : Option Stamp) (a : NodeAttrs) :
    NodeStep σ (σ.emplaceNode l n st a).1 := by
  unfold emplaceNode
  split
  · exact .same fun _ => rfl
  · rename_i hn
    split
    · exact .same fun _ => rfl
    · exact .add n _ (OMap.contains_eq_false.1 (by simpa using hn)) fun m => OMap.find?_insert ..

theorem step_emplacePrev (σ : Spec) (l : LayerId) (n : NodeId) (t : Stamp) (a : NodeAttrs) :
    NodeStep σ (σ.emplacePrev l n t a).1 := by
  unfold emplacePrev
  split
  · exact .same fun _ => rfl
  · rename_i hn
    exact .add n _ (OMap.contains_eq_false.1 (by simpa using hn)) fun m => OMap.find?_insert ..

theorem step_setNodeAttrs (σ : Spec) (n : NodeId) (a : NodeAttrs) : NodeStep σ (σ.setNodeAttrs n a).1 := by
  unfold setNodeAttrs
  split
  · exact .same fun _ => rfl
  · rename_i i hi
    exact .attrs n i a hi fun m => OMap.find?_insert ..

theorem nodeStep (σ : Spec) (op : Op) : NodeStep σ (σ.step op).1 := by
  cases op <;> simp only [step, ans]
  case clear => exact .wipe fun _ => rfl
  case reset => exact .wipe fun _ => rfl
  case createDyn => exact .same fun _ => by rw [nodes_createDyn]
  case emplaceNode => exact step_emplaceNode ..
  case insertNode => exact step_emplaceNode ..
  case emplaceDyn l p t a link =>
    unfold emplaceDyn
    simp only
    split
    · exact .same fun _ => rfl
    · rename_i hn
      split
      · exact .same fun _ => rfl
      · have h0 := OMap.contains_eq_false.1 (by simpa using hn : σ.nodes.contains _ = false)
        split <;> exact .add _ _ h0 fun m => OMap.find?_insert ..
  case emplacePrev => exact step_emplacePrev ..
  case addOrUpdateNode l n a st =>
    unfold addOrUpdateNode
    split
    · exact .same fun _ => rfl
    split
    · exact step_setNodeAttrs ..
    split
    · exact step_emplacePrev ..
    · exact step_emplaceNode ..
  case setNodeAttrs => exact step_setNodeAttrs ..
  case insertEdge => exact .same fun _ => by rw [nodes_insertEdge]
  case insertParentEdge => exact .same fun _ => by rw [nodes_insertParentEdge]
  case addOrUpdateEdge => exact .same fun _ => by rw [nodes_addOrUpdateEdge]
  case setEdgeAttrs => exact .same fun _ => by rw [nodes_setEdgeAttrs]
  case findEdge => exact .same fun _ => by rw [findEdge, nodes_touch]
  case removeNode n =>
    unfold removeNode
    split
    · rename_i hn
      obtain ⟨i, hi⟩ := OMap.contains_eq_true.1 hn
      exact .drop n i hi fun m => by simp only [dropNode, nodes_bridge, OMap.find?_erase]
    · exact .same fun _ => rfl
  case removeEdge => exact .same fun _ => by rw [nodes_removeEdge]
  case mergeNodes f t =>
    unfold mergeNodes
    split
    · exact .same fun _ => rfl
    · split
      · rename_i kf kt hf ht
        split
        · exact .same fun _ => rfl
        · unfold key? at hf
          rw [Option.map_eq_some_iff] at hf
          obtain ⟨i, hi, _⟩ := hf
          exact .drop f i hi fun m => by simp only [OMap.find?_erase]
      · exact .same fun _ => rfl
  case setMesh => exact .same fun _ => rfl
  case markStale => exact .same fun _ => rfl
  case sweep => exact .same fun _ => rfl
  case newNodes => exact .same fun _ => rfl
  case removedNodes => exact .same fun _ => rfl
  case newEdges => exact .same fun _ => rfl
  case removedEdges => exact .same fun _ => rfl

/-- A node keeps its layer as long as it exists. -/
theorem step_key (σ : Spec) (op : Op) {n : NodeId} {k : LayerKey} (h : σ.key? n = some k) :
    (σ.step op).1.key? n = some k ∨ (σ.step op).1.key? n = none := by
  have := σ.nodeStep op
  generalize (σ.step op).1 = σ' at this
  unfold key? at *
  rw [Option.map_eq_some_iff] at h
  obtain ⟨j, hj, rfl⟩ := h
  cases this with
  | same h => left; simp [h, hj]
  | attrs m i a h0 h =>
    left; rw [h]
    by_cases e : m = n
    · subst e; rw [h0] at hj; cases hj; simp
    · simp [e, hj]
  | add m i h0 h =>
    left; rw [h]
    by_cases e : m = n
    · subst e; rw [h0] at hj; cases hj
    · simp [e, hj]
  | drop m i h0 h =>
    rw [h]
    by_cases e : m = n
    · right; simp [e]
    · left; simp [e, hj]
  | wipe h => right; simp [h]

end Spec
end Verif
