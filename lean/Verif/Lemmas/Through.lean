import Verif.Model.Through
set_option linter.unusedSimpArgs false
/-! # The write-through model agrees with the other model files -/

namespace Verif

/-- Forget the state an exception leaves behind. -/
def Thru.res {S α : Type} : Thru S α → Res (S × α)
  | .ok a s => .ok (s, a)
  | .throw e _ => .throw e
  | .ub => .ub

namespace Act
variable {S T α β : Type}

/-- The action as a function that returns the new state or a fault. -/
def res (m : Act S α) (s : S) : Res (S × α) := (m s).res

theorem res_bind (m : Act S α) (f : α → Act S β) (s : S) : (m >>= f).res s = (m.res s >>= fun r => (f r.2).res r.1) := by
  show (Act.bind m f s).res = _
  unfold Act.bind Act.res
  cases m s <;> rfl
theorem res_pure (a : α) (s : S) : (pure a : Act S α).res s = .ok (s, a) := rfl
theorem res_get (s : S) : (Act.get : Act S S).res s = .ok (s, s) := rfl
theorem res_set (s' s : S) : (Act.set s').res s = .ok (s', ()) := rfl
theorem res_read (f : S → Res α) (s : S) : (Act.read f).res s = (f s >>= fun a => .ok (s, a)) := by
  simp only [Act.read, Act.res]
  cases h : f s <;> rfl
theorem res_within (part : S → Res T) (put : S → T → S) (m : Act T α) (s : S) :
    (Act.within part put m).res s = (part s >>= fun t => m.res t >>= fun r => .ok (put s r.1, r.2)) := by
  simp only [Act.within, Act.res]
  cases h : part s with
  | ok t => simp only [Res.bind_ok]; cases h' : m t <;> rfl
  | throw e => rfl
  | ub => rfl
theorem res_each (f : β → Act S Unit) (L : List β) (s : S) :
    (Act.each f L).res s = (foldRes (fun s b => (f b).res s >>= fun r => .ok r.1) s L >>= fun s' => .ok (s', ())) := by
  induction L generalizing s with
  | nil => rfl
  | cons b L ih =>
    simp only [Act.each, res_bind, foldRes_cons, ih]
    cases (f b).res s <;> rfl
theorem res_ite {p : Prop} [Decidable p] (a b : Act S α) (s : S) : (if p then a else b).res s = if p then a.res s else b.res s := by
  split <;> rfl
end Act

/-- `x >>= fun a => .ok (f a)` with a fault in `x`. -/
theorem Res.bind_assoc' {α β γ : Type} (x : Res α) (f : α → Res β) (h : β → Res γ) : (x >>= f) >>= h = x >>= fun a => f a >>= h := by
  cases x <;> rfl
theorem Res.bind_pure' {α : Type} (x : Res α) : (x >>= fun a => .ok a) = x := by cases x <;> rfl
theorem Res.bind_congr' {α β : Type} {x : Res α} {f h : α → Res β} (e : ∀ a, x = .ok a → f a = h a) : (x >>= f) = (x >>= h) := by
  cases x with
  | ok a => exact e a rfl
  | throw e => rfl
  | ub => rfl

open Act

namespace EdgeContainer
theorem res_removeT (s t : NodeId) (c : EdgeContainer) : (removeT s t).res c = (c.remove s t >>= fun c' => .ok (c', ())) := by
  simp only [removeT, res_bind, res_read, res_get, res_set, Res.bind_ok, remove, Res.bind_assoc', Res.pure_eq]
theorem res_findT (s t : NodeId) (c : EdgeContainer) : (findT s t).res c = .ok (c.find s t) := by
  simp only [findT, res_bind, res_get, Res.bind_ok, find, findKey]
  cases c.edges.find? (EdgeKey.of s t) <;> rfl
theorem res_rewireT (s t s' t' : NodeId) (c : EdgeContainer) : (rewireT s t s' t').res c = (c.rewire s t s' t' >>= fun c' => .ok (c', ())) := by
  simp only [rewireT, res_bind, res_findT, Res.bind_ok, rewire, find]
  cases (c.findKey (EdgeKey.of s t)) with
  | mk c1 o =>
    cases o with
    | none => rfl
    | some e =>
      simp only [res_bind, res_read, res_get, res_set, res_removeT, Res.bind_ok, Res.bind_assoc', Res.pure_eq]
end EdgeContainer

namespace Layer
theorem res_onEdges {α : Type} (m : Act EdgeContainer α) (l : Layer) :
    (onEdges m).res l = (m.res l.edges >>= fun r => .ok ({ l with edges := r.1 }, r.2)) := by
  simp only [onEdges, res_within, Res.bind_ok]
theorem res_modNodeT (n : NodeId) (f : Node → Node) (l : Layer) : (modNodeT n f).res l = (l.modNode n f >>= fun l' => .ok (l', ())) := by
  simp only [modNodeT, res_bind, res_read, res_set, Res.bind_assoc', Res.bind_ok]
theorem res_insertEdgeT (s t : NodeId) (i : Option EdgeAttrs) (l : Layer) : (insertEdgeT s t i).res l = l.insertEdge s t i := by
  simp only [insertEdgeT, res_bind, res_get, Res.bind_ok, insertEdge]
  simp only [res_ite]
  repeat (split; · rfl)
  simp only [res_bind, res_modNodeT, res_get, res_set, res_pure, Res.bind_ok, Res.bind_assoc', Res.pure_eq]
theorem res_removeEdgeT (s t : NodeId) (l : Layer) : (removeEdgeT s t).res l = l.removeEdge s t := by
  simp only [removeEdgeT, res_bind, res_get, Res.bind_ok, removeEdge]
  simp only [res_ite]; split; · rfl
  simp only [res_bind, res_modNodeT, res_onEdges, EdgeContainer.res_removeT, res_get, res_set, res_pure, Res.bind_ok, Res.bind_assoc', Res.pure_eq]
theorem res_removeNodeT (n : NodeId) (l : Layer) : (removeNodeT n).res l = l.removeNode n := by
  simp only [removeNodeT, res_bind, res_get, Res.bind_ok, removeNode]
  split
  · rename_i h; simp only [h]; rfl
  · rename_i x h
    simp only [h, res_bind, res_each, res_removeEdgeT, res_get, res_set, res_pure, Res.bind_ok, Res.bind_assoc', Res.pure_eq]
theorem res_rewireEdgeT (s t s' t' : NodeId) (l : Layer) : (rewireEdgeT s t s' t').res l = l.rewireEdge s t s' t' := by
  simp only [rewireEdgeT, res_bind, res_get, Res.bind_ok, rewireEdge]
  simp only [res_ite]
  split; · rfl
  split; · rfl
  split; · rfl
  split; · simp only [res_bind, res_removeEdgeT, res_pure, Res.pure_eq]
  simp only [res_bind, res_modNodeT, res_onEdges, EdgeContainer.res_rewireT, res_get, res_set, res_pure, Res.bind_ok, Res.bind_assoc', Res.pure_eq]
theorem res_mergeNodesT (f t : NodeId) (l : Layer) : (mergeNodesT f t).res l = l.mergeNodes f t := by
  simp only [mergeNodesT, res_bind, res_get, Res.bind_ok, mergeNodes]
  split
  · rename_i h; simp only [h]; rfl
  · rename_i x h
    simp only [h]
    simp only [res_ite]
    repeat (split; · rfl)
    simp only [res_bind, res_each, res_rewireEdgeT, res_get, res_set, res_pure, Res.bind_ok, Res.bind_assoc', Res.pure_eq]
end Layer

namespace DynLayer
theorem res_onEdges {α : Type} (m : Act EdgeContainer α) (l : DynLayer) :
    (onEdges m).res l = (m.res l.edges >>= fun r => .ok ({ l with edges := r.1 }, r.2)) := by
  simp only [onEdges, res_within, Res.bind_ok]
theorem res_modIdxT (i : Nat) (f : Node → Node) (l : DynLayer) : (modIdxT i f).res l = (l.modIdx i f >>= fun l' => .ok (l', ())) := by
  simp only [modIdxT, res_bind, res_read, res_set, Res.bind_assoc', Res.bind_ok]
theorem modIdx_pre {l l' : DynLayer} {i : Nat} {f : Node → Node} (h : l.modIdx i f = .ok l') : l'.pre = l.pre := by
  unfold modIdx at h
  cases hp : l.slot i with
  | ok p =>
    rw [hp] at h
    cases p with
    | none => cases h
    | some x => cases h; rfl
  | throw e => rw [hp] at h; cases h
  | ub => rw [hp] at h; cases h
theorem res_insertEdgeT (s t : NodeId) (i : Option EdgeAttrs) (l : DynLayer) : (insertEdgeT s t i).res l = l.insertEdge s t i := by
  simp only [insertEdgeT, res_bind, res_get, Res.bind_ok, insertEdge]
  simp only [res_ite]
  repeat (split; · rfl)
  simp only [res_bind, res_modIdxT, res_get, res_set, res_pure, Res.bind_ok, Res.bind_assoc', Res.pure_eq]
  refine Res.bind_congr' (fun l' h => ?_)
  rw [modIdx_pre h]
theorem res_removeEdgeT (s t : NodeId) (l : DynLayer) : (removeEdgeT s t).res l = l.removeEdge s t := by
  simp only [removeEdgeT, res_bind, res_get, Res.bind_ok, removeEdge]
  simp only [res_ite]; split; · rfl
  simp only [res_bind, res_modIdxT, res_onEdges, EdgeContainer.res_removeT, res_get, res_set, res_pure, Res.bind_ok, Res.bind_assoc', Res.pure_eq]
  refine Res.bind_congr' (fun l' h => ?_)
  rw [modIdx_pre h]
theorem res_emplaceNodeT (st : Stamp) (a : Option NodeAttrs) (link : Bool) (l : DynLayer) : (emplaceNodeT st a link).res l = l.emplaceNode st a link := by
  simp only [emplaceNodeT, res_bind, res_get, Res.bind_ok, emplaceNode]
  simp only [res_ite]; split; · rfl
  simp only [res_bind, res_get, res_set, Res.bind_ok, res_ite]
  split
  · simp only [res_bind, res_insertEdgeT, res_get, res_set, res_pure, Res.bind_ok, Res.bind_assoc', Res.pure_eq]
  · simp only [res_bind, res_set, res_pure, Res.bind_ok, Res.pure_eq]
theorem res_emplaceNodeAtIndexT (st : Stamp) (i : Nat) (a : Option NodeAttrs) (l : DynLayer) :
    (emplaceNodeAtIndexT st i a).res l = .ok (l.emplaceNodeAtIndex st i a) := rfl
theorem res_removeSlotT (n : NodeId) (i : Nat) (sib : List NodeId) (l : DynLayer) : (removeSlotT n i sib).res l =
    (foldRes (fun l t => (l.removeEdge n t) >>= fun r => .ok r.1) l sib >>= fun l =>
      Res.at? l.nodes[i]? >>= fun p => Res.deref p >>= fun x => Res.deref x.timestamp >>= fun st =>
      .ok ({ l with status := l.status.insert i .deleted, times := l.times.erase st, nodes := l.nodes.set i none }, true)) := by
  simp only [removeSlotT, res_bind, res_each, res_removeEdgeT, res_get, res_set, res_read, res_pure, Res.bind_ok, Res.bind_assoc']
theorem res_removeNodeT (n : NodeId) (l : DynLayer) : (removeNodeT n).res l = l.removeNode n := by
  simp only [removeNodeT, res_bind, res_get, Res.bind_ok, removeNode]
  simp only [res_ite]; split; · rfl
  simp only [res_bind, res_read, Res.bind_assoc', Res.bind_ok]
  refine Res.bind_congr' (fun p _ => Res.bind_congr' (fun x _ => ?_))
  rw [res_ite]
  split
  · simp only [res_bind, res_insertEdgeT, res_removeSlotT, Res.bind_assoc', Res.pure_eq, Res.bind_ok]
  · simp only [res_removeSlotT, Res.pure_eq, Res.bind_ok]
end DynLayer

namespace BaseLayer
theorem res_dispatch {α : Type} (m : Act Layer α) (m' : Act DynLayer α) (b : BaseLayer) : (dispatch m m').res b =
    (match b with
     | .static l => m.res l >>= fun r => .ok (.static r.1, r.2)
     | .dyn l => m'.res l >>= fun r => .ok (.dyn r.1, r.2)) := by
  unfold dispatch Act.res
  cases b with
  | static l => simp only; cases m l <;> rfl
  | dyn l => simp only; cases m' l <;> rfl
theorem res_insertEdge (s t : NodeId) (i : Option EdgeAttrs) (b : BaseLayer) :
    (dispatch (Layer.insertEdgeT s t i) (DynLayer.insertEdgeT s t i)).res b = b.insertEdge s t i := by
  rw [res_dispatch]
  cases b <;> simp only [Layer.res_insertEdgeT, DynLayer.res_insertEdgeT, insertEdge]
theorem res_removeEdge (s t : NodeId) (b : BaseLayer) :
    (dispatch (Layer.removeEdgeT s t) (DynLayer.removeEdgeT s t)).res b = b.removeEdge s t := by
  rw [res_dispatch]
  cases b <;> simp only [Layer.res_removeEdgeT, DynLayer.res_removeEdgeT, removeEdge]
theorem res_removeNode (n : NodeId) (b : BaseLayer) :
    (dispatch (Layer.removeNodeT n) (DynLayer.removeNodeT n)).res b = b.removeNode n := by
  rw [res_dispatch]
  cases b <;> simp only [Layer.res_removeNodeT, DynLayer.res_removeNodeT, removeNode]
theorem res_find (s t : NodeId) (b : BaseLayer) :
    (dispatch (Layer.onEdges (EdgeContainer.findT s t)) (DynLayer.onEdges (EdgeContainer.findT s t))).res b
      = .ok (b.setEc (b.ec.find s t).1, (b.ec.find s t).2) := by
  rw [res_dispatch]
  cases b <;> simp only [Layer.res_onEdges, DynLayer.res_onEdges, EdgeContainer.res_findT, Res.bind_ok, setEc, ec]
end BaseLayer

namespace Graph
theorem res_modify (f : Graph → Graph) (g : Graph) : (modify f).res g = .ok (f g, ()) := rfl
theorem res_onLayer {α : Type} (k : LayerKey) (m : Act BaseLayer α) (g : Graph) :
    (onLayer k m).res g = (g.layerFromKey k >>= fun b => m.res b >>= fun r => .ok (g.setLayer k r.1, r.2)) := by
  simp only [onLayer, res_within]
theorem res_onDyn {α : Type} (l : LayerId) (p : Prefix) (m : Act DynLayer α) (g : Graph) :
    (onDyn l p m).res g = (Res.deref (g.dynLayer? l p) >>= fun b => m.res b >>= fun r => .ok (g.setDyn l p r.1, r.2)) := by
  simp only [onDyn, res_within]
theorem res_onStatic {α : Type} (l : LayerId) (m : Act Layer α) (g : Graph) :
    (onStatic l m).res g = (Res.deref (g.layers.find? l) >>= fun b => m.res b >>= fun r => .ok ({ g with layers := g.layers.insert l r.1 }, r.2)) := by
  simp only [onStatic, res_within]
theorem res_onInter {α : Type} (d : Bool) (m : Act EdgeContainer α) (g : Graph) : (onInter d m).res g =
    if d then (m.res g.dynInter >>= fun r => .ok ({ g with dynInter := r.1 }, r.2))
    else (m.res g.inter >>= fun r => .ok ({ g with inter := r.1 }, r.2)) := by
  unfold onInter
  split <;> simp only [res_within, Res.bind_ok]
theorem res_modNodeT (n : NodeId) (k : LayerKey) (f : Node → Node) (g : Graph) : (modNodeT n k f).res g = (g.modNode n k f >>= fun g' => .ok (g', ())) := by
  simp only [modNodeT, res_bind, res_read, res_set, Res.bind_assoc', Res.bind_ok]

theorem res_emplaceDynT (l : LayerId) (p : Prefix) (t : Stamp) (a : Option NodeAttrs) (link : Bool) (g : Graph) :
    (emplaceDynT l p t a link).res g = g.emplaceDyn l p t a link := by
  simp only [emplaceDynT, res_bind, res_get, Res.bind_ok, emplaceDyn, res_ite]
  split; · rfl
  simp only [res_bind, res_modify, res_onDyn, DynLayer.res_emplaceNodeT, Res.bind_ok, Res.bind_assoc', res_ite]
  refine Res.bind_congr' (fun d _ => Res.bind_congr' (fun r _ => ?_))
  obtain ⟨d', b⟩ := r
  cases b <;> rfl

theorem res_emplacePrevT (l : LayerId) (n : NodeId) (t : Stamp) (a : Option NodeAttrs) (g : Graph) :
    (emplacePrevT l n t a).res g = g.emplacePrev l n t a := by
  simp only [emplacePrevT, res_bind, res_get, Res.bind_ok, emplacePrev, res_ite]
  split; · rfl
  simp only [res_bind, res_modify, res_onDyn, Res.bind_ok, Res.bind_assoc', res_ite, DynLayer.res_emplaceNodeAtIndexT]
  refine Res.bind_congr' (fun d _ => ?_)
  split <;> rfl

theorem res_setNodeAttributesT (n : NodeId) (a : Option NodeAttrs) (g : Graph) : (setNodeAttributesT n a).res g = g.setNodeAttributes n a := by
  simp only [setNodeAttributesT, res_bind, res_get, Res.bind_ok, setNodeAttributes]
  split
  · rename_i h; simp only [h]; rfl
  · rename_i k h; simp only [h, res_bind, res_modNodeT, res_pure, Res.bind_assoc', Res.bind_ok, Res.pure_eq]

theorem res_addOrUpdateNodeT (l : LayerId) (n : NodeId) (a : Option NodeAttrs) (st : Option Stamp) (g : Graph) :
    (addOrUpdateNodeT l n a st).res g = g.addOrUpdateNode l n a st := by
  simp only [addOrUpdateNodeT, res_bind, res_get, Res.bind_ok, addOrUpdateNode]
  cases g.layers.find? l with
  | none => rfl
  | some x =>
    simp only
    cases g.lookup.find? n with
    | some k => simp only [res_bind, res_modNodeT, res_pure, Res.bind_assoc', Res.bind_ok, Res.pure_eq]
    | none =>
      simp only
      cases st with
      | some t => exact res_emplacePrevT l n t a g
      | none =>
        simp only [res_bind, res_modify, Res.bind_ok, res_ite]
        split
        · simp only [res_bind, res_modify, res_pure, Res.bind_ok]
        · rfl

theorem res_addAncestryT (s t : NodeId) (ks kt : LayerKey) (g : Graph) :
    (addAncestryT s t ks kt).res g = (g.addAncestry s t ks kt >>= fun g' => .ok (g', ())) := by
  simp only [addAncestryT, res_bind, res_read, Res.bind_assoc', Res.bind_ok, addAncestry, res_ite]
  refine Res.bind_congr' (fun _ _ => Res.bind_congr' (fun _ _ => ?_))
  split
  · simp only [res_bind, res_modNodeT, Res.bind_assoc', Res.bind_ok]
  split <;> simp only [res_bind, res_modNodeT, Res.bind_assoc', Res.bind_ok]

theorem res_removeAncestryT (s t : NodeId) (ks kt : LayerKey) (g : Graph) :
    (removeAncestryT s t ks kt).res g = (g.removeAncestry s t ks kt >>= fun g' => .ok (g', ())) := by
  simp only [removeAncestryT, res_bind, res_read, Res.bind_assoc', Res.bind_ok, removeAncestry, res_ite]
  refine Res.bind_congr' (fun _ _ => Res.bind_congr' (fun _ _ => ?_))
  split
  · simp only [res_bind, res_modNodeT, Res.bind_assoc', Res.bind_ok]
  split <;> simp only [res_bind, res_modNodeT, Res.bind_assoc', Res.bind_ok]

theorem res_insertEdgeT (s t : NodeId) (i : Option EdgeAttrs) (g : Graph) : (insertEdgeT s t i).res g = g.insertEdge s t i := by
  simp only [insertEdgeT, res_bind, res_read, Res.bind_assoc', Res.bind_ok, insertEdge]
  refine Res.bind_congr' (fun r _ => ?_)
  obtain ⟨has, ks, kt⟩ := r
  simp only [res_ite]
  split; · rfl
  split; · rfl
  split
  · simp only [res_onLayer, BaseLayer.res_insertEdge, Res.pure_eq]
  · simp only [res_bind, res_addAncestryT, res_modify, res_pure, Res.bind_assoc', Res.bind_ok, Res.pure_eq]

theorem res_removeInterlayerEdgeT (s t : NodeId) (ks kt : LayerKey) (g : Graph) :
    (removeInterlayerEdgeT s t ks kt).res g = (g.removeInterlayerEdge s t ks kt >>= fun g' => .ok (g', ())) := by
  simp only [removeInterlayerEdgeT, res_bind, res_removeAncestryT, res_onInter, EdgeContainer.res_removeT, Res.bind_assoc', Res.bind_ok, removeInterlayerEdge]
  refine Res.bind_congr' (fun g' _ => ?_)
  split <;> simp only [Res.bind_assoc', Res.bind_ok, Res.pure_eq]

theorem res_removeInterlayerEdgeT' (s t : NodeId) (g : Graph) :
    (removeInterlayerEdgeT' s t).res g = (g.removeInterlayerEdge' s t >>= fun g' => .ok (g', ())) := by
  simp only [removeInterlayerEdgeT', res_bind, res_read, res_removeInterlayerEdgeT, Res.bind_assoc', Res.bind_ok, removeInterlayerEdge']

theorem res_removeEdgeT (s t : NodeId) (g : Graph) : (removeEdgeT s t).res g = g.removeEdge s t := by
  simp only [removeEdgeT, res_bind, res_read, Res.bind_assoc', Res.bind_ok, removeEdge]
  refine Res.bind_congr' (fun r _ => ?_)
  obtain ⟨has, ks, kt⟩ := r
  simp only [res_ite]
  split; · rfl
  split; · rfl
  split
  · simp only [res_onLayer, BaseLayer.res_removeEdge, Res.pure_eq]
  · simp only [res_bind, res_removeInterlayerEdgeT, res_pure, Res.bind_assoc', Res.bind_ok, Res.pure_eq]

theorem res_dropAllParentsT (s t : NodeId) (ks kt : LayerKey) (g : Graph) :
    (dropAllParentsT s t ks kt).res g = (g.dropAllParents s t ks kt >>= fun g' => .ok (g', ())) := by
  simp only [dropAllParentsT, res_bind, res_read, res_each, res_removeEdgeT, res_pure, Res.bind_assoc', Res.bind_ok, dropAllParents]

theorem res_linkParentT (s t : NodeId) (ks kt : LayerKey) (a : Option EdgeAttrs) (g : Graph) : (linkParentT s t ks kt a).res g =
    (g.addAncestry s t ks kt >>= fun g => .ok (g.insertInterlayer s t ks kt a, true)) := by
  simp only [linkParentT, res_bind, res_addAncestryT, res_modify, res_pure, Res.bind_assoc', Res.bind_ok]

theorem res_insertParentEdgeT (s t : NodeId) (i : Option EdgeAttrs) (g : Graph) : (insertParentEdgeT s t i).res g = g.insertParentEdge s t i := by
  simp only [insertParentEdgeT, res_bind, res_read, Res.bind_assoc', Res.bind_ok, insertParentEdge]
  refine Res.bind_congr' (fun r _ => ?_)
  obtain ⟨has, ks, kt⟩ := r
  simp only [res_ite]
  split; · rfl
  split; · rfl
  by_cases h : ks ≠ kt
  · simp only [h, if_true, res_bind, res_dropAllParentsT, res_linkParentT, Res.bind_assoc', Res.bind_ok, Res.pure_eq, not_false_eq_true, ne_eq]
  · simp only [h, if_false, res_linkParentT, Res.bind_assoc', Res.bind_ok, Res.pure_eq]

theorem res_findEdgeInT (s t : NodeId) (ks kt : LayerKey) (g : Graph) : (findEdgeInT s t ks kt).res g = g.findEdgeIn s t ks kt := by
  unfold findEdgeInT findEdgeIn
  split
  · simp only [res_onLayer, BaseLayer.res_find, Res.bind_ok, Res.pure_eq]
  · rw [res_onInter]
    simp only [EdgeContainer.res_findT, Res.bind_ok]

theorem res_findEdgeT (s t : NodeId) (g : Graph) : (findEdgeT s t).res g = g.findEdge s t := by
  simp only [findEdgeT, res_bind, res_read, res_findEdgeInT, Res.bind_assoc', Res.bind_ok, findEdge]

theorem res_getEdgeT (s t : NodeId) (g : Graph) : (getEdgeT s t).res g = g.getEdge s t := by
  simp only [getEdgeT, res_bind, res_read, res_findEdgeT, Res.bind_assoc', Res.bind_ok, getEdge]
  refine Res.bind_congr' (fun r _ => ?_)
  obtain ⟨g', e⟩ := r
  cases e <;> rfl

theorem res_setEdgeAttributesT (s t : NodeId) (i : Option EdgeAttrs) (g : Graph) : (setEdgeAttributesT s t i).res g = g.setEdgeAttributes s t i := by
  simp only [setEdgeAttributesT, res_bind, res_read, res_findEdgeInT, Res.bind_assoc', Res.bind_ok, setEdgeAttributes]
  refine Res.bind_congr' (fun ks _ => Res.bind_congr' (fun kt _ => Res.bind_congr' (fun r _ => ?_)))
  obtain ⟨g', e⟩ := r
  cases e with
  | none => rfl
  | some e => simp only [res_bind, res_read, res_set, res_pure, Res.bind_assoc', Res.bind_ok, Res.pure_eq]

theorem res_addOrUpdateEdgeT (s t : NodeId) (i : Option EdgeAttrs) (g : Graph) : (addOrUpdateEdgeT s t i).res g = g.addOrUpdateEdge s t i := by
  simp only [addOrUpdateEdgeT, res_bind, res_read, Res.bind_assoc', Res.bind_ok, addOrUpdateEdge, res_ite, res_setEdgeAttributesT, res_insertEdgeT]

theorem res_removeNodeT (n : NodeId) (g : Graph) : (removeNodeT n).res g = g.removeNode n := by
  simp only [removeNodeT, res_bind, res_get, Res.bind_ok, removeNode]
  split
  · rename_i h; simp only [h]; rfl
  · rename_i k h
    simp only [h, res_bind, res_read, res_each, res_removeInterlayerEdgeT', res_onLayer, BaseLayer.res_removeNode, res_modify, res_pure, Res.bind_assoc',
      Res.bind_ok, Res.pure_eq, Res.bind_pure']

theorem res_takeInterT (s t : NodeId) (c : EdgeContainer) : (takeInterT s t).res c =
    (match (c.find s t).2 with
     | none => .ok ((c.find s t).1, none)
     | some e => Res.deref e.info >>= fun a => (c.find s t).1.remove s t >>= fun c' => .ok (c', some a)) := by
  simp only [takeInterT, res_bind, EdgeContainer.res_findT, Res.bind_ok]
  cases (c.find s t).2 with
  | none => rfl
  | some e => simp only [res_bind, res_read, EdgeContainer.res_removeT, res_pure, Res.bind_assoc', Res.bind_ok]

theorem res_rewireInterlayerEdgeT (s s' t : NodeId) (g : Graph) :
    (rewireInterlayerEdgeT s s' t).res g = (g.rewireInterlayerEdge s s' t >>= fun g' => .ok (g', ())) := by
  unfold rewireInterlayerEdgeT rewireInterlayerEdge
  rw [res_ite]
  split; · rfl
  simp only [res_bind, res_read, Res.bind_assoc', Res.bind_ok]
  refine Res.bind_congr' (fun ks _ => Res.bind_congr' (fun r _ => ?_))
  obtain ⟨has, ks', kt⟩ := r
  simp only [res_ite]
  split; · exact res_removeInterlayerEdgeT _ _ _ _ _
  simp only [res_bind, res_removeAncestryT, res_addAncestryT, res_onInter, Res.bind_assoc', Res.bind_ok, res_takeInterT]
  refine Res.bind_congr' (fun g1 _ => Res.bind_congr' (fun g2 _ => ?_))
  split
  · cases hf : (g2.dynInter.find s t).2 with
    | none => simp only [Res.bind_ok, Res.pure_eq]; rfl
    | some e =>
      simp only [Res.bind_assoc', Res.bind_ok, res_modify, Res.pure_eq]
  · cases hf : (g2.inter.find s t).2 with
    | none => simp only [Res.bind_ok, Res.pure_eq]; rfl
    | some e =>
      simp only [Res.bind_assoc', Res.bind_ok, res_modify, Res.pure_eq]

theorem res_mergeNodesT (f t : NodeId) (g : Graph) : (mergeNodesT f t).res g = g.mergeNodes f t := by
  simp only [mergeNodesT, res_bind, res_get, Res.bind_ok, mergeNodes]
  cases g.lookup.find? f with
  | none => rfl
  | some kf =>
    cases g.lookup.find? t with
    | none => rfl
    | some kt =>
      simp only [res_ite]
      split; · rfl
      split; · rfl
      simp only [res_bind, res_read, res_each, res_rewireInterlayerEdgeT, res_onStatic, Layer.res_mergeNodesT, res_modify, res_pure, Res.bind_assoc',
        Res.bind_ok, Res.pure_eq, Res.bind_pure', staticNode]

theorem res_removeStaleEdgesT (m : OMap EdgeKey Bool) (g : Graph) :
    (removeStaleEdgesT m).res g = (g.removeStaleEdges m >>= fun g' => .ok (g', ())) := by
  simp only [removeStaleEdgesT, res_each, removeStaleEdges, res_ite, res_bind, res_removeEdgeT, res_pure]
  congr 1
  congr 1
  funext g e
  split
  · simp only [Res.bind_assoc', Res.bind_ok]
  · rfl

theorem res_removeStaleStaticT (l : LayerId) (g : Graph) : (removeStaleStaticT l).res g = (g.removeStaleStatic l >>= fun g' => .ok (g', ())) := by
  simp only [removeStaleStaticT, res_bind, res_get, Res.bind_ok, removeStaleStatic]
  cases g.layers.find? l with
  | none => rfl
  | some x => exact res_removeStaleEdgesT _ g
theorem res_removeStaleDynT (e : LayerId × Prefix) (g : Graph) : (removeStaleDynT e).res g = (g.removeStaleDyn e >>= fun g' => .ok (g', ())) := by
  simp only [removeStaleDynT, res_bind, res_get, Res.bind_ok, removeStaleDyn]
  cases g.dynLayer? e.1 e.2 with
  | none => rfl
  | some x => exact res_removeStaleEdgesT _ g

theorem res_removeAllStaleEdgesT (g : Graph) : removeAllStaleEdgesT.res g = (g.removeAllStaleEdges >>= fun g' => .ok (g', ())) := by
  simp only [removeAllStaleEdgesT, res_bind, res_get, Res.bind_ok, res_each, res_removeStaleStaticT, res_removeStaleDynT, res_removeStaleEdgesT,
    removeAllStaleEdges, Res.bind_assoc', Res.bind_pure']

theorem res_ansT {m : Act Graph Bool} {r : Graph → Res (Graph × Bool)} (h : ∀ g, m.res g = r g) (g : Graph) : (ansT m).res g = ans (r g) := by
  simp only [ansT, res_bind, h, res_pure, ans]
theorem res_totalT {α : Type} (f : Graph → Graph × α) (g : Graph) : (totalT f).res g = .ok (f g) := rfl

/-- The write-through step is the step of the other model, plus the state left behind by an exception. -/
theorem res_stepT (op : Op) (g : Graph) : (stepT op).res g = g.step op := by
  cases op with
  | emplaceDyn l p t a link => exact res_ansT (res_emplaceDynT l p t (some a) link) g
  | emplacePrev l n t a => exact res_ansT (res_emplacePrevT l n t (some a)) g
  | addOrUpdateNode l n a st => exact res_ansT (res_addOrUpdateNodeT l n (some a) st) g
  | setNodeAttrs n a => exact res_ansT (res_setNodeAttributesT n (some a)) g
  | insertEdge s t i => exact res_ansT (res_insertEdgeT s t i) g
  | insertParentEdge s t i => exact res_ansT (res_insertParentEdgeT s t i) g
  | addOrUpdateEdge s t i => exact res_ansT (res_addOrUpdateEdgeT s t i) g
  | setEdgeAttrs s t i => exact res_ansT (res_setEdgeAttributesT s t (some i)) g
  | findEdge s t => simp only [stepT, res_bind, res_findEdgeT, res_pure, step]
  | removeNode n => exact res_ansT (res_removeNodeT n) g
  | removeEdge s t => exact res_ansT (res_removeEdgeT s t) g
  | mergeNodes s t => exact res_ansT (res_mergeNodesT s t) g
  | sweep => simp only [stepT, res_bind, res_removeAllStaleEdgesT, res_pure, step, Res.bind_assoc', Res.bind_ok]
  | _ => rfl
end Graph
end Verif
