import Verif.Lemmas.Mirror
/-! # What a graph is made of while a message is applied -/

namespace Verif
namespace Spec

/-- The nodes, edges and meshes that may be met. -/
structure Rules (K : NodeId → NodeInfo → Prop) (T : NodeId → NodeId → EdgeAttrs → Prop) : Prop where
  same : ∀ {n i j}, K n i → K n j → i.key = j.key ∧ i.stamp = j.stamp
  sym : ∀ {a b x}, T a b x → T b a x
  line : ∀ {a b i j}, K a i → K b j → i.key = j.key → i.key.dynamic = true → T a b {}
  cross : ∀ {a b x i j}, T a b x → K a i → K b j → i.key.layer = j.key.layer → i.key = j.key

/-- Every node, edge and the mesh is one that may be met. -/
structure Mix (ids : List LayerId) (K : NodeId → NodeInfo → Prop) (T : NodeId → NodeId → EdgeAttrs → Prop) (M : Option Mesh → Prop) (τ : Spec) : Prop where
  layers : τ.layerIds = ids
  nodes : ∀ n j, τ.nodes.find? n = some j → K n j
  edges : ∀ a b e, τ.edge? a b = some e → T a b e.attrs
  mesh : M τ.mesh

variable {ids : List LayerId} {K : NodeId → NodeInfo → Prop} {T : NodeId → NodeId → EdgeAttrs → Prop} {M : Option Mesh → Prop} {τ : Spec} {F : Fmt}

theorem Mix.noCross (hr : Rules K T) (h : Mix ids K T M τ) : τ.NoCross := by
  intro a b ka kb he ha hb hl
  rw [hasEdge_edge?, Option.isSome_iff_exists] at he
  obtain ⟨e, he⟩ := he
  simp only [key?, Option.map_eq_some_iff] at ha hb
  obtain ⟨i, hi, rfl⟩ := ha
  obtain ⟨j, hj, rfl⟩ := hb
  exact hr.cross (h.edges a b e he) (h.nodes a i hi) (h.nodes b j hj) hl

theorem Mix.removeNode (hr : Rules K T) (h : Mix ids K T M τ) (n : NodeId) : Mix ids K T M (τ.step (.removeNode n)).1 := by
  simp only [step, ans, Spec.removeNode]
  split
  · have hb : Mix ids K T M (τ.bridge n) := by
      by_cases hb : τ.bridges n
      · have hk := hb
        rw [bridge_pos hb]
        obtain ⟨l, p, -, h1, h2, -⟩ := hk
        simp only [key?, Option.map_eq_some_iff] at h1 h2
        obtain ⟨i, hi, hik⟩ := h1
        obtain ⟨j, hj, hjk⟩ := h2
        have t := hr.line (h.nodes _ i hi) (h.nodes _ j hj) (hik.trans hjk.symm) (by rw [hik]; rfl)
        refine ⟨h.layers, h.nodes, ?_, h.mesh⟩
        intro a b e he
        rw [edge?_addEdge] at he
        split at he
        · rename_i hh
          cases he
          rcases hh with ⟨rfl, rfl⟩ | ⟨rfl, rfl⟩
          · exact t
          · exact hr.sym t
        · exact h.edges a b e he
      · rw [bridge_neg hb]; exact h
    refine ⟨hb.layers, ?_, ?_, hb.mesh⟩
    · intro m j hj
      simp only [dropNode, OMap.find?_erase] at hj
      split at hj
      · cases hj
      · exact hb.nodes m j hj
    · intro a b e he
      rw [edge?_dropNode] at he
      split at he
      · cases he
      · exact hb.edges a b e he
  · exact h

theorem Mix.markStale (h : Mix ids K T M τ) : Mix ids K T M (τ.step .markStale).1 := ⟨h.layers, h.nodes, h.edges, h.mesh⟩

theorem Mix.sweep (h : Mix ids K T M τ) : Mix ids K T M (τ.step .sweep).1 := by
  refine ⟨h.layers, h.nodes, ?_, h.mesh⟩
  intro a b e he
  have he : (Spec.sweep τ).edge? a b = some e := he
  unfold Spec.sweep at he
  rw [edge?_filter] at he
  obtain ⟨x, hx, hy⟩ := Option.bind_eq_some_iff.1 he
  split at hy
  · cases hy; exact h.edges a b e hx
  · cases hy

theorem Mix.setMesh (h : Mix ids K T M τ) {m : Option Mesh} (hm : M m) : Mix ids K T M (τ.step (.setMesh m)).1 := ⟨h.layers, h.nodes, h.edges, hm⟩

theorem Mix.edgeOp (hr : Rules K T) (h : Mix ids K T M τ) {e : EdgeInfo} (he : T e.src e.tgt e.attrs) : Mix ids K T M (τ.step (edgeOp e)).1 := by
  have key : ∀ (o x : EdgeInfo) (a b : NodeId), o.attrs = e.attrs → (τ.edges.insert (EdgeKey.of e.src e.tgt) o).find? (EdgeKey.of a b) = some x → T a b x.attrs := by
    intro o x a b ho hx
    rw [OMap.find?_insert] at hx
    split at hx
    · rename_i hk
      cases hx
      rw [ho]
      rcases EdgeKey.of_inj.1 hk with ⟨rfl, rfl⟩ | ⟨rfl, rfl⟩
      · exact he
      · exact hr.sym he
    · exact h.edges a b x hx
  simp only [Verif.edgeOp, step, ans, addOrUpdateEdge]
  split
  · unfold setEdgeAttrs
    split
    · exact h
    · rename_i o _
      have ht : (τ.touch (EdgeKey.of e.src e.tgt)).layerIds = τ.layerIds ∧ (τ.touch (EdgeKey.of e.src e.tgt)).nodes = τ.nodes ∧
          (τ.touch (EdgeKey.of e.src e.tgt)).mesh = τ.mesh := by
        unfold touch; split <;> exact ⟨rfl, rfl, rfl⟩
      refine ⟨ht.1.trans h.layers, fun n j hj => ?_, fun a b x hx => key _ x a b (by rfl) hx, ?_⟩
      · exact h.nodes n j (by rw [← ht.2.1]; exact hj)
      · show M (τ.touch (EdgeKey.of e.src e.tgt)).mesh
        rw [ht.2.2]; exact h.mesh
  · unfold Spec.insertEdge
    split
    · exact h
    · split
      · exact h
      · exact ⟨h.layers, h.nodes, fun a b x hx => key ⟨e.src, e.tgt, e.attrs⟩ x a b rfl hx, h.mesh⟩

/-- Every abstract state on the way satisfies `P`. -/
def AlongS (P : Spec → Prop) (τ : Spec) (ops : List Op) : Prop := ∀ a b, ops = a ++ b → P (τ.after a)

theorem AlongS.nil {P : Spec → Prop} (h : P τ) : AlongS P τ [] := by
  intro a b e
  obtain ⟨rfl, rfl⟩ := List.append_eq_nil_iff.1 e.symm
  exact h
theorem AlongS.cons {P : Spec → Prop} {op : Op} {ops : List Op} (h : P τ) (h' : AlongS P (τ.step op).1 ops) : AlongS P τ (op :: ops) := by
  intro a b e
  cases a with
  | nil => exact h
  | cons x a =>
    simp only [List.cons_append, List.cons.injEq] at e
    obtain ⟨rfl, e⟩ := e
    exact h' a b e
theorem AlongS.append {P : Spec → Prop} {x y : List Op} (h : AlongS P τ x) (h' : AlongS P (τ.after x) y) : AlongS P τ (x ++ y) := by
  induction x generalizing τ with
  | nil => exact h'
  | cons op x ih =>
    refine .cons (h [] _ rfl) (ih (fun a b e => ?_) h')
    exact h (op :: a) b (by rw [e]; rfl)
theorem AlongS.last {P : Spec → Prop} {x : List Op} (h : AlongS P τ x) : P (τ.after x) := h x [] (by simp)
theorem AlongS.each {P : Spec → Prop} {α : Type} {f : α → Op} (L : List α) (h : P τ) (hs : ∀ x ∈ L, ∀ τ, P τ → P (τ.step (f x)).1) : AlongS P τ (L.map f) := by
  induction L generalizing τ with
  | nil => exact .nil h
  | cons x L ih => exact .cons h (ih (hs x List.mem_cons_self τ h) (fun y hy => hs y (List.mem_cons_of_mem _ hy)))

theorem Mix.nodeOps {N : List (NodeId × NodeInfo)} (h : Mix ids K T M τ) (hf : Fits τ N) (hk : ∀ e ∈ N, K e.1 (keptInfo F e)) :
    AlongS (Mix ids K T M) τ (N.map (nodeOp F)) := by
  induction N generalizing τ with
  | nil => exact .nil h
  | cons e N ih =>
    obtain ⟨-, h2, h3, -, h5, h6⟩ := hf.step (F := F)
    refine .cons h (ih ⟨h6.trans h.layers, ?_, ?_, by rw [h5]; exact h.mesh⟩ (hf.tail h2 h6) (fun x hx => hk x (List.mem_cons_of_mem _ hx)))
    · intro n j hj
      rw [h2, OMap.find?_insert] at hj
      split at hj
      · rename_i hn
        cases hj
        subst hn
        exact hk e List.mem_cons_self
      · exact h.nodes n j hj
    · intro a b x hx
      refine h.edges a b x ?_
      unfold edge? at hx ⊢
      rw [h3] at hx
      exact hx

/-- All the states a receiver goes through while it applies a message. -/
theorem Mix.sync (hr : Rules K T) (h : Mix ids K T M τ) {N : List (NodeId × NodeInfo)} (hf : Fits τ N) (hk : ∀ e ∈ N, K e.1 (keptInfo F e)) (rm : List NodeId)
    {Es : List EdgeInfo} (he : ∀ e ∈ Es, T e.src e.tgt e.attrs) {mesh : Option Mesh} (hm : ∀ m, mesh = some m → M (some m)) :
    AlongS (Mix ids K T M) τ (syncOps F N rm Es mesh) := by
  unfold syncOps
  have a1 := h.nodeOps hf hk
  refine a1.append ?_
  have a2 := AlongS.each (f := Op.removeNode) rm a1.last (fun n _ τ h => h.removeNode hr n)
  refine a2.append (.cons a2.last ?_)
  have a3 := AlongS.each (f := Verif.edgeOp) Es a2.last.markStale (fun e hh τ h => h.edgeOp hr (he e hh))
  refine a3.append (.cons a3.last ?_)
  cases mesh with
  | none => exact .nil a3.last.sweep
  | some m => exact .cons a3.last.sweep (.nil (a3.last.sweep.setMesh (hm m rfl)))
end Spec
end Verif
