import Verif.Model.Api
/-! # Partial correctness: what holds whenever a call returns normally -/

namespace Verif

/-- If the call returns normally, its value satisfies `P`. -/
structure Res.Keeps {α : Type} (P : α → Prop) (r : Res α) : Prop where
  get : ∀ a, r = .ok a → P a

namespace Res
variable {α β : Type} {P : α → Prop} {Q : β → Prop}

theorem Keeps.ok {a : α} (h : P a) : Keeps P (Res.ok a) := by
  constructor; intro b e; cases e; exact h
theorem Keeps.pure {a : α} (h : P a) : Keeps P (Pure.pure a : Res α) := Keeps.ok h
theorem Keeps.throw {e : Exc} : Keeps P (Res.throw e) := by constructor; intro b h; cases h
theorem Keeps.ub : Keeps P (Res.ub) := by constructor; intro b h; cases h
theorem Keeps.bind {r : Res α} {f : α → Res β} (h : Keeps P r) (hf : ∀ a, P a → Keeps Q (f a)) : Keeps Q (r >>= f) := by
  constructor
  intro b e
  cases r with
  | ok a => exact (hf a (h.get a rfl)).get b e
  | throw x => cases e
  | ub => cases e
theorem Keeps.any {r : Res α} : Keeps (fun _ => True) r := ⟨fun _ _ => trivial⟩
theorem Keeps.skip {r : Res α} {f : α → Res β} (hf : ∀ a, Keeps Q (f a)) : Keeps Q (r >>= f) :=
  Keeps.bind (P := fun _ => True) Keeps.any (fun a _ => hf a)
theorem Keeps.fold {γ : Type} {f : α → γ → Res α} (hf : ∀ s x, P s → Keeps P (f s x)) (L : List γ) {s : α} (hs : P s) :
    Keeps P (foldRes f s L) := by
  induction L generalizing s with
  | nil => exact Keeps.ok hs
  | cons x L ih => exact Keeps.bind (hf s x hs) (fun a ha => ih ha)
end Res

open Res (Keeps)

namespace Graph

/-- Every entry of the table of dynamic layers holds at least one layer. -/
structure DynsUsed (g : Graph) : Prop where
  used : ∀ l m, g.dyns.find? l = some m → ∃ p, m.contains p = true

namespace DynsUsed
variable {g : Graph}

theorem of_dyns {g' : Graph} (h : g.DynsUsed) (e : g'.dyns = g.dyns) : g'.DynsUsed := by
  constructor; intro l m hm; rw [e] at hm; exact h.used l m hm

theorem setDyn (h : g.DynsUsed) (l : LayerId) (p : Prefix) (d : DynLayer) : (g.setDyn l p d).DynsUsed := by
  constructor
  intro l' m hm
  simp only [Graph.setDyn, OMap.find?_insert] at hm
  split at hm
  · cases hm; exact ⟨p, by rw [OMap.contains_insert]; simp⟩
  · exact h.used l' m hm

theorem map (h : g.DynsUsed) (f : LayerId → OMap Prefix DynLayer → OMap Prefix DynLayer)
    (hf : ∀ l m p, m.contains p = true → (f l m).contains p = true) {g' : Graph} (e : g'.dyns = g.dyns.map f) : g'.DynsUsed := by
  constructor
  intro l m hm
  rw [e, OMap.find?_map] at hm
  cases hq : g.dyns.find? l with
  | none => simp [hq] at hm
  | some q =>
    simp [hq] at hm
    obtain ⟨p, hp⟩ := h.used l q hq
    exact ⟨p, by rw [← hm]; exact hf l q p hp⟩

theorem mapMap (h : g.DynsUsed) (f : DynLayer → DynLayer) {g' : Graph}
    (e : g'.dyns = g.dyns.map (fun _ m => m.map (fun _ d => f d))) : g'.DynsUsed := by
  refine h.map _ ?_ e
  intro l m p hp
  obtain ⟨d, hd⟩ := OMap.contains_eq_true.1 hp
  rw [OMap.contains_eq_true]
  exact ⟨f d, by rw [OMap.find?_map, hd]; rfl⟩

theorem create (h : g.DynsUsed) (l : LayerId) (p : Prefix) : (g.createDynamicLayer l p).1.DynsUsed := by
  unfold createDynamicLayer
  split
  · exact h
  · exact h.setDyn _ _ _

theorem setLayer (h : g.DynsUsed) (k : LayerKey) (b : BaseLayer) : (g.setLayer k b).DynsUsed := by
  unfold Graph.setLayer
  split
  · exact h.of_dyns rfl
  · exact h.setDyn _ _ _
  · exact h

theorem modNode (h : g.DynsUsed) (n : NodeId) (k : LayerKey) (f : Node → Node) : Keeps DynsUsed (g.modNode n k f) := by
  refine Keeps.skip (fun _ => Keeps.skip (fun _ => ?_))
  split <;> split
  · exact Keeps.ub
  · exact Keeps.pure (h.setDyn _ _ _)
  · exact Keeps.ub
  · exact Keeps.pure (h.of_dyns rfl)

theorem mods (h : g.DynsUsed) (n n' : NodeId) (k k' : LayerKey) (f f' : Node → Node) :
    Keeps DynsUsed (g.modNode n k f >>= fun g => g.modNode n' k' f') :=
  Keeps.bind (h.modNode n k f) (fun _ h => h.modNode n' k' f')

theorem addAncestry (h : g.DynsUsed) (s t : NodeId) (ks kt : LayerKey) : Keeps DynsUsed (g.addAncestry s t ks kt) := by
  refine Keeps.skip (fun _ => Keeps.skip (fun _ => ?_))
  split
  · exact h.mods ..
  split <;> exact h.mods ..

theorem removeAncestry (h : g.DynsUsed) (s t : NodeId) (ks kt : LayerKey) : Keeps DynsUsed (g.removeAncestry s t ks kt) := by
  refine Keeps.skip (fun _ => Keeps.skip (fun _ => ?_))
  split
  · exact h.mods ..
  split <;> exact h.mods ..

theorem insertInterlayer (h : g.DynsUsed) (s t : NodeId) (ks kt : LayerKey) (a : Option EdgeAttrs) :
    (g.insertInterlayer s t ks kt a).DynsUsed := by
  unfold Graph.insertInterlayer; split <;> exact h.of_dyns rfl

theorem emplaceNode (h : g.DynsUsed) (l : LayerId) (n : NodeId) (a : Option NodeAttrs) : (g.emplaceNode l n a).1.DynsUsed := by
  unfold Graph.emplaceNode
  split
  · exact h
  split
  · exact h
  dsimp only
  split <;> exact h.of_dyns rfl

theorem insertNode (h : g.DynsUsed) (x) : (g.insertNode x).1.DynsUsed := by
  unfold Graph.insertNode
  split
  · exact h
  split
  · exact h
  split
  · exact h
  dsimp only
  split <;> exact h.of_dyns rfl

theorem made (h : g.DynsUsed) (l : LayerId) (p : Prefix) :
    (if g.hasDynLayer l p = true then g else (g.createDynamicLayer l p).1).DynsUsed := by
  split
  · exact h
  · exact h.create _ _

theorem emplaceDyn (h : g.DynsUsed) (l p t a link) : Keeps (fun r => r.1.DynsUsed) (g.emplaceDyn l p t a link) := by
  unfold Graph.emplaceDyn
  dsimp only
  split
  · exact Keeps.ok h
  refine Keeps.skip (fun _ => Keeps.skip (fun r => ?_))
  have := (h.made l p).setDyn l p r.1
  split
  · exact Keeps.pure this
  · exact Keeps.pure (this.of_dyns rfl)

theorem emplacePrev (h : g.DynsUsed) (l n t a) : Keeps (fun r => r.1.DynsUsed) (g.emplacePrev l n t a) := by
  unfold Graph.emplacePrev
  split
  · exact Keeps.ok h
  dsimp only
  refine Keeps.skip (fun d => ?_)
  have := (h.made l (Prefix.fromId n)).setDyn l (Prefix.fromId n) (d.emplaceNodeAtIndex t ((Prefix.fromId n).index n) a).1
  split
  · exact Keeps.pure this
  · exact Keeps.pure (this.of_dyns rfl)

theorem setNodeAttributes (h : g.DynsUsed) (n a) : Keeps (fun r => r.1.DynsUsed) (g.setNodeAttributes n a) := by
  unfold Graph.setNodeAttributes
  split
  · exact Keeps.ok h
  · exact Keeps.bind (h.modNode ..) (fun _ h => Keeps.pure h)

theorem addOrUpdateNode (h : g.DynsUsed) (l n a s) : Keeps (fun r => r.1.DynsUsed) (g.addOrUpdateNode l n a s) := by
  unfold Graph.addOrUpdateNode
  split
  · exact Keeps.ok h
  split
  · exact Keeps.bind (h.modNode ..) (fun _ h => Keeps.pure h)
  split
  · exact h.emplacePrev ..
  dsimp only
  split <;> exact Keeps.ok (h.of_dyns rfl)

theorem insertEdge (h : g.DynsUsed) (s t a) : Keeps (fun r => r.1.DynsUsed) (g.insertEdge s t a) := by
  refine Keeps.skip (fun r => ?_)
  obtain ⟨has, ks, kt⟩ := r
  dsimp only
  split
  · exact Keeps.pure h
  split
  · exact Keeps.pure h
  split
  · exact Keeps.skip (fun _ => Keeps.skip (fun _ => Keeps.pure (h.setLayer _ _)))
  · exact Keeps.bind (h.addAncestry ..) (fun _ h => Keeps.pure (h.insertInterlayer ..))

theorem removeInterlayerEdge (h : g.DynsUsed) (s t ks kt) : Keeps DynsUsed (g.removeInterlayerEdge s t ks kt) := by
  refine Keeps.bind (h.removeAncestry ..) (fun _ h => ?_)
  split <;> exact Keeps.skip (fun _ => Keeps.pure (h.of_dyns rfl))

theorem removeInterlayerEdge' (h : g.DynsUsed) (s t) : Keeps DynsUsed (g.removeInterlayerEdge' s t) :=
  Keeps.skip (fun _ => Keeps.skip (fun _ => h.removeInterlayerEdge ..))

theorem removeEdge (h : g.DynsUsed) (s t) : Keeps (fun r => r.1.DynsUsed) (g.removeEdge s t) := by
  refine Keeps.skip (fun r => ?_)
  obtain ⟨has, ks, kt⟩ := r
  dsimp only
  split
  · exact Keeps.pure h
  split
  · exact Keeps.pure h
  split
  · exact Keeps.skip (fun _ => Keeps.skip (fun _ => Keeps.pure (h.setLayer _ _)))
  · exact Keeps.bind (h.removeInterlayerEdge ..) (fun _ h => Keeps.pure h)

theorem dropAllParents (h : g.DynsUsed) (s t ks kt) : Keeps DynsUsed (g.dropAllParents s t ks kt) := by
  refine Keeps.skip (fun _ => Keeps.skip (fun _ => Keeps.skip (fun _ => ?_)))
  refine Keeps.fold (fun g q h => ?_) _ h
  exact Keeps.bind (h.removeEdge ..) (fun _ h => Keeps.ok h)

theorem insertParentEdge (h : g.DynsUsed) (s t a) : Keeps (fun r => r.1.DynsUsed) (g.insertParentEdge s t a) := by
  refine Keeps.skip (fun r => ?_)
  obtain ⟨has, ks, kt⟩ := r
  dsimp only
  split
  · exact Keeps.pure h
  split
  · exact Keeps.pure h
  split
  · refine Keeps.bind (h.dropAllParents ..) (fun _ h => ?_)
    exact Keeps.bind (DynsUsed.addAncestry h ..) (fun _ h => Keeps.pure (DynsUsed.insertInterlayer h ..))
  · exact Keeps.bind (Keeps.pure h) (fun _ h => Keeps.bind (DynsUsed.addAncestry h ..) (fun _ h => Keeps.pure (DynsUsed.insertInterlayer h ..)))

theorem findEdgeIn (h : g.DynsUsed) (s t ks kt) : Keeps (fun r => r.1.DynsUsed) (g.findEdgeIn s t ks kt) := by
  unfold Graph.findEdgeIn
  split
  · exact Keeps.skip (fun _ => Keeps.pure (h.setLayer _ _))
  split <;> exact Keeps.ok (h.of_dyns rfl)

theorem setInfoIn (h : g.DynsUsed) (s t ks kt a) : Keeps DynsUsed (g.setInfoIn s t ks kt a) := by
  unfold Graph.setInfoIn
  split
  · exact Keeps.skip (fun _ => Keeps.pure (h.setLayer _ _))
  split <;> exact Keeps.ok (h.of_dyns rfl)

theorem setEdgeAttributes (h : g.DynsUsed) (s t a) : Keeps (fun r => r.1.DynsUsed) (g.setEdgeAttributes s t a) := by
  refine Keeps.skip (fun _ => Keeps.skip (fun _ => Keeps.bind (h.findEdgeIn ..) (fun r h => ?_)))
  obtain ⟨g, e⟩ := r
  dsimp only
  split
  · exact Keeps.pure h
  · exact Keeps.bind (DynsUsed.setInfoIn h ..) (fun _ h => Keeps.pure h)

theorem addOrUpdateEdge (h : g.DynsUsed) (s t a) : Keeps (fun r => r.1.DynsUsed) (g.addOrUpdateEdge s t a) := by
  refine Keeps.skip (fun _ => ?_)
  split
  · exact h.setEdgeAttributes ..
  · exact h.insertEdge ..

theorem removeNode (h : g.DynsUsed) (n) : Keeps (fun r => r.1.DynsUsed) (g.removeNode n) := by
  unfold Graph.removeNode
  split
  · exact Keeps.ok h
  refine Keeps.skip (fun _ => Keeps.skip (fun _ => ?_))
  refine Keeps.bind (Keeps.fold (fun g q h => h.removeInterlayerEdge' ..) _ h) (fun _ h => ?_)
  refine Keeps.skip (fun _ => Keeps.skip (fun _ => ?_))
  refine Keeps.bind (Keeps.fold (fun g q h => h.removeInterlayerEdge' ..) _ h) (fun _ h => ?_)
  refine Keeps.skip (fun _ => Keeps.skip (fun _ => ?_))
  exact Keeps.pure ((DynsUsed.setLayer h _ _).of_dyns rfl)

theorem rewireInterlayerEdge (h : g.DynsUsed) (s s' t) : Keeps DynsUsed (g.rewireInterlayerEdge s s' t) := by
  unfold Graph.rewireInterlayerEdge
  split
  · exact Keeps.ok h
  refine Keeps.skip (fun _ => Keeps.skip (fun r => ?_))
  obtain ⟨has, ks, kt⟩ := r
  dsimp only
  split
  · exact h.removeInterlayerEdge ..
  refine Keeps.bind (h.removeAncestry ..) (fun _ h => Keeps.bind (h.addAncestry ..) (fun _ h => ?_))
  refine Keeps.bind (P := fun (r : Graph × Option EdgeAttrs) => r.1.DynsUsed) ?_ (fun r h => ?_)
  · split <;> split <;> first
      | exact Keeps.pure (DynsUsed.of_dyns h rfl)
      | exact Keeps.skip (fun _ => Keeps.skip (fun _ => Keeps.pure (DynsUsed.of_dyns h rfl)))
  · obtain ⟨g, a⟩ := r
    dsimp only
    split
    · exact Keeps.pure h
    · exact Keeps.pure (DynsUsed.insertInterlayer h ..)

theorem mergeNodes (h : g.DynsUsed) (f t) : Keeps (fun r => r.1.DynsUsed) (g.mergeNodes f t) := by
  unfold Graph.mergeNodes
  split
  · split
    · exact Keeps.ok h
    split
    · exact Keeps.ok h
    refine Keeps.skip (fun _ => Keeps.skip (fun _ => ?_))
    refine Keeps.bind (Keeps.fold (fun g q h => h.rewireInterlayerEdge ..) _ h) (fun _ h => ?_)
    refine Keeps.skip (fun _ => Keeps.skip (fun _ => ?_))
    refine Keeps.bind (Keeps.fold (fun g q h => h.rewireInterlayerEdge ..) _ h) (fun _ h => ?_)
    refine Keeps.skip (fun _ => Keeps.skip (fun _ => ?_))
    exact Keeps.pure (DynsUsed.of_dyns h rfl)
  · exact Keeps.ok h

theorem removeStaleEdges (h : g.DynsUsed) (m) : Keeps DynsUsed (g.removeStaleEdges m) := by
  refine Keeps.fold (fun g e h => ?_) _ h
  split
  · exact Keeps.bind (h.removeEdge ..) (fun _ h => Keeps.ok h)
  · exact Keeps.ok h

theorem removeAllStaleEdges (h : g.DynsUsed) : Keeps DynsUsed g.removeAllStaleEdges := by
  refine Keeps.bind (Keeps.fold (fun g e h => ?_) _ h) (fun _ h => Keeps.bind (Keeps.fold (fun g e h => ?_) _ h) (fun _ h => ?_))
  · unfold removeStaleStatic
    split
    · exact Keeps.ok h
    · exact h.removeStaleEdges _
  · unfold removeStaleDyn
    split
    · exact Keeps.ok h
    · exact h.removeStaleEdges _
  · exact Keeps.bind (h.removeStaleEdges _) (fun _ h => h.removeStaleEdges _)

theorem step (h : g.DynsUsed) (op : Op) : Keeps (fun r => r.1.DynsUsed) (g.step op) := by
  have A : ∀ {r : Res (Graph × Bool)}, Keeps (fun r => r.1.DynsUsed) r → Keeps (fun r => r.1.DynsUsed) (ans r) :=
    fun h => Keeps.bind h (fun _ h => Keeps.ok h)
  have E : (∅ : OMap LayerId (OMap Prefix DynLayer)) = g.clear.dyns := rfl
  have Z : ∀ {g' : Graph}, g'.dyns = ∅ → g'.DynsUsed := by
    intro g' e; constructor; intro l m hm; rw [e] at hm; simp at hm
  cases op with
  | clear => exact Keeps.ok (Z rfl)
  | reset ids => exact Keeps.ok (Z rfl)
  | createDyn l p => exact A (Keeps.ok (h.create l p))
  | emplaceNode l n a => exact A (Keeps.ok (h.emplaceNode ..))
  | insertNode l n s a => exact A (Keeps.ok (h.insertNode _))
  | emplaceDyn l p t a link => exact A (h.emplaceDyn ..)
  | emplacePrev l n t a => exact A (h.emplacePrev ..)
  | addOrUpdateNode l n a s => exact A (h.addOrUpdateNode ..)
  | setNodeAttrs n a => exact A (h.setNodeAttributes ..)
  | insertEdge s t i => exact A (h.insertEdge ..)
  | insertParentEdge s t i => exact A (h.insertParentEdge ..)
  | addOrUpdateEdge s t i => exact A (h.addOrUpdateEdge ..)
  | setEdgeAttrs s t a => exact A (h.setEdgeAttributes ..)
  | findEdge s t =>
    exact Keeps.bind (Keeps.skip (fun _ => Keeps.skip (fun _ => h.findEdgeIn ..))) (fun _ h => Keeps.ok h)
  | removeNode n => exact A (h.removeNode n)
  | removeEdge s t => exact A (h.removeEdge ..)
  | mergeNodes f t => exact A (h.mergeNodes ..)
  | setMesh m => exact Keeps.ok (h.of_dyns rfl)
  | markStale => exact Keeps.ok (h.mapMap _ rfl)
  | sweep => exact Keeps.bind h.removeAllStaleEdges (fun _ h => Keeps.ok h)
  | newNodes c => exact Keeps.ok (h.mapMap _ rfl)
  | removedNodes c => exact Keeps.ok (h.mapMap _ rfl)
  | newEdges c => exact Keeps.ok (h.mapMap _ rfl)
  | removedEdges c => exact Keeps.ok (h.mapMap _ rfl)

theorem run (h : g.DynsUsed) (ops : List Op) : Keeps (fun r => r.1.DynsUsed) (g.run ops) := by
  induction ops generalizing g with
  | nil => exact Keeps.ok h
  | cons op ops ih => exact Keeps.bind (h.step op) (fun r h => Keeps.bind (ih h) (fun _ h => Keeps.ok h))

theorem exec (ids : List LayerId) (ops : List Op) : Keeps (fun r => r.1.DynsUsed) (Graph.exec ids ops) := by
  refine Keeps.bind (P := DynsUsed) ?_ (fun g h => h.run ops)
  unfold Graph.create
  split
  · exact Keeps.throw
  · refine Keeps.ok ?_
    constructor; intro l m hm; simp [Graph.clear] at hm

end DynsUsed
end Graph
end Verif
