import Verif.Lemmas.Through
import Verif.Refine.Refused
/-! # Which calls leave the object alone when they throw -/

namespace Verif
namespace Act
variable {S T α β : Type}

/-- The action does not throw in this state. -/
def Calm (m : Act S α) (s : S) : Prop := ∀ e s', m s ≠ .throw e s'
/-- If the action throws in this state, nothing has been written. -/
def Strong (m : Act S α) (s : S) : Prop := ∀ e s', m s = .throw e s' → s' = s

theorem Calm.strong {m : Act S α} {s : S} (h : m.Calm s) : m.Strong s := fun e s' he => (h e s' he).elim
theorem calm_iff {m : Act S α} {s : S} : m.Calm s ↔ ∀ e, m.res s ≠ .throw e := by
  unfold Calm Act.res
  constructor
  · intro h e he
    cases hm : m s with
    | ok a s' => rw [hm] at he; cases he
    | throw e' s' => exact h _ _ hm
    | ub => rw [hm] at he; cases he
  · intro h e s' he
    exact h e (by rw [he]; rfl)
theorem calm_pure (a : α) (s : S) : (pure a : Act S α).Calm s := fun _ _ h => by cases h
theorem calm_get (s : S) : (Act.get : Act S S).Calm s := fun _ _ h => by cases h
theorem calm_set (s' s : S) : (Act.set s').Calm s := fun _ _ h => by cases h
theorem Calm.bind {m : Act S α} {f : α → Act S β} {s : S} (h : m.Calm s) (h' : ∀ a s', m s = .ok a s' → (f a).Calm s') : (m >>= f).Calm s := by
  intro e s' he
  have he : Act.bind m f s = .throw e s' := he
  unfold Act.bind at he
  cases hm : m s with
  | ok a s1 => rw [hm] at he; exact h' a s1 hm e s' he
  | throw e1 s1 => exact h _ _ hm
  | ub => rw [hm] at he; cases he
theorem Strong.bind {m : Act S α} {f : α → Act S β} {s : S} (h : m.Strong s)
    (h' : ∀ a s', m s = .ok a s' → (f a).Calm s' ∨ (s' = s ∧ (f a).Strong s)) : (m >>= f).Strong s := by
  intro e s' he
  have he : Act.bind m f s = .throw e s' := he
  unfold Act.bind at he
  cases hm : m s with
  | ok a s1 =>
    rw [hm] at he
    rcases h' a s1 hm with h1 | ⟨h2, h1⟩
    · exact (h1 e s' he).elim
    · rw [h2] at he
      exact h1 e s' he
  | throw e1 s1 => rw [hm] at he; cases he; exact h _ _ hm
  | ub => rw [hm] at he; cases he
theorem strong_read (f : S → Res α) (s : S) : (Act.read f).Strong s := by
  intro e s' he
  unfold Act.read at he
  cases hf : f s <;> rw [hf] at he <;> cases he
  rfl
theorem read_ok {f : S → Res α} {s s' : S} {a : α} (h : Act.read f s = .ok a s') : s' = s ∧ f s = .ok a := by
  unfold Act.read at h
  cases hf : f s <;> rw [hf] at h <;> cases h
  exact ⟨rfl, rfl⟩
theorem calm_read {f : S → Res α} {s : S} (h : ∀ e, f s ≠ .throw e) : (Act.read f).Calm s := by
  intro e s' he
  unfold Act.read at he
  cases hf : f s with
  | throw e1 => exact h _ hf
  | ok a => rw [hf] at he; cases he
  | ub => rw [hf] at he; cases he
/-- A read followed by anything strong in the same state. -/
theorem Strong.ofRead {f : S → Res α} {k : α → Act S β} {s : S} (h : ∀ a, f s = .ok a → (k a).Strong s) : (Act.read f >>= k).Strong s :=
  Strong.bind (strong_read f s) (fun a s' ha => by
    obtain ⟨rfl, ha⟩ := read_ok ha
    exact .inr ⟨rfl, h a ha⟩)
theorem Strong.ofGet {k : S → Act S β} {s : S} (h : (k s).Strong s) : (Act.get >>= k).Strong s :=
  Strong.bind (calm_get s).strong (fun a s' ha => by cases ha; exact .inr ⟨rfl, h⟩)
theorem Calm.ofGet {k : S → Act S β} {s : S} (h : (k s).Calm s) : (Act.get >>= k).Calm s :=
  Calm.bind (calm_get s) (fun a s' ha => by cases ha; exact h)
theorem Calm.within {part : S → Res T} {put : S → T → S} {m : Act T α} {s : S} (hp : ∀ e, part s ≠ .throw e)
    (h : ∀ t, part s = .ok t → m.Calm t) : (Act.within part put m).Calm s := by
  rw [calm_iff, res_within]
  intro e he
  cases hq : part s with
  | ok t =>
    rw [hq, Res.bind_ok] at he
    cases hm : m.res t with
    | ok r => rw [hm] at he; cases he
    | throw e' => exact calm_iff.1 (h t hq) _ hm
    | ub => rw [hm] at he; cases he
  | throw e' => exact hp _ hq
  | ub => rw [hq] at he; cases he
theorem Strong.within {part : S → Res T} {put : S → T → S} {m : Act T α} {s : S} (hput : ∀ t, part s = .ok t → put s t = s)
    (h : ∀ t, part s = .ok t → m.Strong t) : (Act.within part put m).Strong s := by
  intro e s' he
  unfold Act.within at he
  cases hq : part s with
  | ok t =>
    rw [hq] at he
    simp only at he
    cases hm : m t with
    | ok a t' => rw [hm] at he; cases he
    | throw e' t' =>
      rw [hm] at he; cases he
      rw [h t hq _ _ hm, hput t hq]
    | ub => rw [hm] at he; cases he
  | throw e' => rw [hq] at he; cases he; rfl
  | ub => rw [hq] at he; cases he
/-- Set after a read that cannot be followed by a throw. -/
theorem strong_readSet (f : S → Res S) (s : S) : (Act.read f >>= Act.set).Strong s :=
  Strong.ofRead (fun a _ => (calm_set a s).strong)
end Act

open Act

theorem Res.deref_ne_throw {α : Type} (o : Option α) (e : Exc) : Res.deref o ≠ .throw e := by cases o <;> simp [Res.deref]

namespace Layer
theorem calm_modNodeT (n : NodeId) (f : Node → Node) (l : Layer) : (modNodeT n f).Calm l := by
  rw [calm_iff, res_modNodeT]
  intro e
  unfold modNode
  split <;> simp
theorem calm_insertEdgeT (s t : NodeId) (i : Option EdgeAttrs) (l : Layer) : (insertEdgeT s t i).Calm l := by
  unfold insertEdgeT
  refine Calm.ofGet ?_
  repeat (split; · exact calm_pure _ _)
  exact Calm.bind (calm_modNodeT _ _ _) (fun _ l1 _ => Calm.bind (calm_modNodeT _ _ _) (fun _ l2 _ => Calm.ofGet (Calm.bind (calm_set _ _) (fun _ _ _ => calm_pure _ _))))
end Layer

namespace DynLayer
theorem calm_modIdxT (i : Nat) (f : Node → Node) (l : DynLayer) : (modIdxT i f).Calm l := by
  rw [calm_iff, res_modIdxT]
  intro e
  unfold modIdx slot
  cases l.nodes[i]? with
  | none => simp
  | some p => cases p <;> simp
theorem calm_insertEdgeT (s t : NodeId) (i : Option EdgeAttrs) (l : DynLayer) : (insertEdgeT s t i).Calm l := by
  unfold insertEdgeT
  refine Calm.ofGet ?_
  repeat (split; · exact calm_pure _ _)
  exact Calm.bind (calm_modIdxT _ _ _) (fun _ l1 _ => Calm.bind (calm_modIdxT _ _ _) (fun _ l2 _ => Calm.ofGet (Calm.bind (calm_set _ _) (fun _ _ _ => calm_pure _ _))))
theorem calm_emplaceNodeT (st : Stamp) (a : Option NodeAttrs) (link : Bool) (l : DynLayer) : (emplaceNodeT st a link).Calm l := by
  unfold emplaceNodeT
  refine Calm.ofGet ?_
  split
  · exact calm_pure _ _
  refine Calm.bind (calm_set _ _) (fun _ _ _ => Calm.ofGet (Calm.bind (calm_set _ _) (fun _ _ _ => Calm.ofGet (Calm.bind (calm_set _ _) (fun _ _ _ => Calm.ofGet ?_)))))
  split
  · exact Calm.bind (calm_insertEdgeT _ _ _ _) (fun _ _ _ => Calm.ofGet (Calm.bind (calm_set _ _) (fun _ _ _ => calm_pure _ _)))
  · exact Calm.bind (calm_set _ _) (fun _ _ _ => calm_pure _ _)
end DynLayer

namespace Graph
variable {g : Graph}

theorem calm_modify (f : Graph → Graph) (g : Graph) : (modify f).Calm g := fun _ _ h => by cases h
theorem calm_onDyn {α : Type} (l : LayerId) (p : Prefix) {m : Act DynLayer α} (h : ∀ d, m.Calm d) (g : Graph) : (onDyn l p m).Calm g :=
  Calm.within (Res.deref_ne_throw _) (fun d _ => h d)
theorem calm_emplaceDynT (l p t a link) (g : Graph) : (emplaceDynT l p t a link).Calm g := by
  unfold emplaceDynT
  refine Calm.ofGet ?_
  simp only
  split
  · exact calm_pure _ _
  refine Calm.bind (calm_modify _ _) (fun _ _ _ => Calm.bind (calm_onDyn l p (fun d => DynLayer.calm_emplaceNodeT _ _ _ d) _) (fun b _ _ => ?_))
  split
  · exact calm_pure _ _
  · exact Calm.bind (calm_modify _ _) (fun _ _ _ => calm_pure _ _)
theorem calm_emplacePrevT (l n t a) (g : Graph) : (emplacePrevT l n t a).Calm g := by
  unfold emplacePrevT
  refine Calm.ofGet ?_
  split
  · exact calm_pure _ _
  simp only
  refine Calm.bind (calm_modify _ _) (fun _ _ _ => Calm.bind (calm_onDyn l _ (fun d => ?_) _) (fun b _ _ => ?_))
  · exact fun _ _ h => by cases h
  split
  · exact calm_pure _ _
  · exact Calm.bind (calm_modify _ _) (fun _ _ _ => calm_pure _ _)

theorem strong_modNodeT (n k f) (g : Graph) : (modNodeT n k f).Strong g := strong_readSet _ g
theorem strong_setNodeAttributesT (n a) (g : Graph) : (setNodeAttributesT n a).Strong g := by
  unfold setNodeAttributesT
  refine Strong.ofGet ?_
  split
  · exact (calm_pure _ _).strong
  · exact Strong.bind (strong_modNodeT _ _ _ _) (fun _ _ _ => .inl (calm_pure _ _))
theorem strong_addOrUpdateNodeT (l n a st) (g : Graph) : (addOrUpdateNodeT l n a st).Strong g := by
  unfold addOrUpdateNodeT
  refine Strong.ofGet ?_
  split
  · exact (calm_pure _ _).strong
  split
  · exact Strong.bind (strong_modNodeT _ _ _ _) (fun _ _ _ => .inl (calm_pure _ _))
  split
  · exact (calm_emplacePrevT _ _ _ _ g).strong
  · refine (Calm.bind (calm_modify _ _) (fun _ _ _ => ?_)).strong
    split
    · exact Calm.bind (calm_modify _ _) (fun _ _ _ => calm_pure _ _)
    · exact calm_pure _ _

/-- A pointer can be looked up. -/
def Held (g : Graph) (n : NodeId) (k : LayerKey) : Prop := ∀ e, g.getNodePtr n k ≠ .throw e

theorem held_of_ok {n : NodeId} {k : LayerKey} {p : Option Node} (h : g.getNodePtr n k = .ok p) : g.Held n k := by
  intro e; rw [h]; simp

theorem held_iff {n : NodeId} {k : LayerKey} : g.Held n k ↔
    (match k with
     | .dyn l p => ∃ d, g.dynLayer? l p = some d ∧ (NodeSymbol.categoryId n).toNat < d.nodes.length
     | .static l => ∃ x y, g.layers.find? l = some x ∧ x.nodes.find? n = some y) := by
  unfold Held getNodePtr
  cases k with
  | static l =>
    simp only
    cases g.layers.find? l with
    | none => simp [Res.at?]
    | some x =>
      cases hy : x.nodes.find? n with
      | none => simp [Res.at?, hy]
      | some y => simp [Res.at?, hy]
  | dyn l p =>
    simp only [dynLayer?]
    cases g.dyns.find? l with
    | none => simp [Res.at?]
    | some m =>
      cases hm : m.find? p with
      | none => simp [Res.at?, hm]
      | some d =>
        simp only [Res.at?_some, Res.bind_ok, hm, Option.bind_some, Option.some.injEq, exists_eq_left']
        cases hd : d.nodes[(NodeSymbol.categoryId n).toNat]? with
        | none => simpa using hd
        | some o =>
          have : (NodeSymbol.categoryId n).toNat < d.nodes.length := (List.getElem?_eq_some_iff.1 hd).1
          simp [this]

theorem modNode_ne_throw {n : NodeId} {k : LayerKey} (h : g.Held n k) (f : Node → Node) (e : Exc) : g.modNode n k f ≠ .throw e := by
  unfold modNode
  cases hp : g.getNodePtr n k with
  | throw e' => exact (h e' hp).elim
  | ub => simp
  | ok p =>
    cases p with
    | none => simp
    | some x =>
      simp only [Res.bind_ok, Res.deref_some]
      cases k with
      | dyn l p => simp only; cases g.dynLayer? l p <;> simp
      | static l => simp only; cases g.layers.find? l <;> simp

/-- Writing through one pointer does not move another. -/
theorem Held.modNode {n m : NodeId} {k k' : LayerKey} {f : Node → Node} {g' : Graph} (h : g.Held n k) (e : g.modNode m k' f = .ok g') : g'.Held n k := by
  unfold Graph.modNode at e
  obtain ⟨p, -, e⟩ := bind_eq_ok e
  obtain ⟨x, -, e⟩ := bind_eq_ok e
  rw [held_iff] at h ⊢
  cases k' with
  | static l' =>
    simp only at e
    cases hy : g.layers.find? l' with
    | none => rw [hy] at e; cases e
    | some y =>
      rw [hy] at e; cases e
      cases k with
      | dyn l p => exact h
      | static l =>
        obtain ⟨u, w, hu, hw⟩ := h
        simp only [OMap.find?_insert]
        split
        · rename_i hl
          subst hl
          rw [hy] at hu; cases hu
          by_cases hn : n = m
          · exact ⟨_, f x, rfl, by simp [OMap.find?_insert, hn]⟩
          · refine ⟨_, w, rfl, ?_⟩
            simp only [OMap.find?_insert]
            split
            · rename_i h; exact (hn (by first | exact h | exact h.symm)).elim
            · exact hw
        · exact ⟨u, w, hu, hw⟩
  | dyn l' p' =>
    simp only at e
    cases hy : g.dynLayer? l' p' with
    | none => rw [hy] at e; cases e
    | some y =>
      rw [hy] at e; cases e
      cases k with
      | static l => exact h
      | dyn l p =>
        obtain ⟨d, hd, hlt⟩ := h
        simp only [dynLayer?_setDyn]
        split
        · rename_i hl
          obtain ⟨rfl, rfl⟩ := hl
          rw [hy] at hd; cases hd
          exact ⟨_, rfl, by simpa using hlt⟩
        · exact ⟨d, hd, hlt⟩

theorem modNodeT_ok {n : NodeId} {k : LayerKey} {f : Node → Node} {g' : Graph} {u : Unit} (h : modNodeT n k f g = .ok u g') : g.modNode n k f = .ok g' := by
  have := res_modNodeT n k f g
  unfold Act.res at this
  rw [h] at this
  cases hm : g.modNode n k f with
  | ok a => rw [hm] at this; cases this; rfl
  | throw e => rw [hm] at this; cases this
  | ub => rw [hm] at this; cases this
theorem calm_modNodeT {n : NodeId} {k : LayerKey} (h : g.Held n k) (f : Node → Node) : (modNodeT n k f).Calm g :=
  Calm.bind (calm_read (modNode_ne_throw h f)) (fun _ _ _ => calm_set _ _)
theorem calm_mods {n m : NodeId} {k k' : LayerKey} (h : g.Held n k) (h' : g.Held m k') (f f' : Node → Node) :
    (modNodeT n k f >>= fun _ => modNodeT m k' f').Calm g :=
  Calm.bind (calm_modNodeT h f) (fun _ _ e => calm_modNodeT (h'.modNode (modNodeT_ok e)) f')

/-- `addAncestry` writes only after both pointers have been found. -/
theorem strong_addAncestryT (s t ks kt) (g : Graph) : (addAncestryT s t ks kt).Strong g := by
  unfold addAncestryT
  refine Strong.ofRead (fun p hp => Strong.ofRead (fun q hq => ?_))
  have h1 := held_of_ok hp
  have h2 := held_of_ok hq
  split
  · exact (calm_mods h1 h2 _ _).strong
  split
  · exact (calm_mods h2 h1 _ _).strong
  · exact (calm_mods h1 h2 _ _).strong

theorem layerFromKey_ne_throw {k : LayerKey} {b : BaseLayer} (h : g.layerFromKey k = .ok b) (e : Exc) : g.layerFromKey k ≠ .throw e := by rw [h]; simp

theorem strong_onLayer {α : Type} (k : LayerKey) {m : Act BaseLayer α} (h : ∀ b, m.Strong b) (g : Graph) : (onLayer k m).Strong g :=
  Strong.within (fun _ hb => setLayer_self (layerFromKey_iff.1 hb)) (fun b _ => h b)

theorem strong_dispatch {α : Type} {m : Act Layer α} {m' : Act DynLayer α} (h : ∀ l, m.Calm l) (h' : ∀ l, m'.Calm l) (b : BaseLayer) :
    (BaseLayer.dispatch m m').Strong b := by
  intro e s' he
  unfold BaseLayer.dispatch at he
  cases b with
  | static l =>
    simp only at he
    cases hm : m l with
    | throw e1 l1 => exact (h _ _ _ hm).elim
    | ok a l1 => rw [hm] at he; cases he
    | ub => rw [hm] at he; cases he
  | dyn l =>
    simp only at he
    cases hm : m' l with
    | throw e1 l1 => exact (h' _ _ _ hm).elim
    | ok a l1 => rw [hm] at he; cases he
    | ub => rw [hm] at he; cases he

theorem strong_insertEdgeT (s t i) (g : Graph) : (insertEdgeT s t i).Strong g := by
  unfold insertEdgeT
  refine Strong.ofRead (fun r _ => ?_)
  obtain ⟨has, ks, kt⟩ := r
  simp only
  split
  · exact (calm_pure _ _).strong
  split
  · exact (calm_pure _ _).strong
  split
  · exact strong_onLayer ks (strong_dispatch (Layer.calm_insertEdgeT s t _) (DynLayer.calm_insertEdgeT s t _)) g
  · exact Strong.bind (strong_addAncestryT s t ks kt g) (fun _ _ _ => .inl (Calm.bind (calm_modify _ _) (fun _ _ _ => calm_pure _ _)))

theorem calm_findT (s t : NodeId) (c : EdgeContainer) : (EdgeContainer.findT s t).Calm c := by
  rw [calm_iff, EdgeContainer.res_findT]; simp
theorem strong_findEdgeInT (s t ks kt) (g : Graph) : (findEdgeInT s t ks kt).Strong g := by
  unfold findEdgeInT
  split
  · exact strong_onLayer ks (strong_dispatch (fun l => Calm.within (by simp) (fun c _ => calm_findT s t c)) (fun l => Calm.within (by simp) (fun c _ => calm_findT s t c))) g
  · unfold onInter
    split
    · exact (Calm.within (by simp) (fun c _ => calm_findT s t c)).strong
    · exact (Calm.within (by simp) (fun c _ => calm_findT s t c)).strong
theorem strong_findEdgeT (s t) (g : Graph) : (findEdgeT s t).Strong g :=
  Strong.ofRead (fun ks _ => Strong.ofRead (fun kt _ => strong_findEdgeInT s t ks kt g))

theorem of_res {S α : Type} {m : Act S α} {s s' : S} {a : α} (h : m s = .ok a s') : m.res s = .ok (s', a) := by
  unfold Act.res; rw [h]; rfl

theorem strong_getEdgeT (s t) (g : Graph) : (getEdgeT s t).Strong g := by
  unfold getEdgeT
  refine Strong.bind (strong_findEdgeT s t g) (fun e g' he => ?_)
  cases e with
  | some e => exact .inl (calm_read (by simp))
  | none =>
    have he := of_res he
    rw [res_findEdgeT] at he
    unfold findEdge at he
    obtain ⟨ks, -, he⟩ := bind_eq_ok he
    obtain ⟨kt, -, he⟩ := bind_eq_ok he
    exact .inr ⟨findEdgeIn_none he, strong_read _ g⟩

theorem layerFromKey_setLayer {k : LayerKey} {b b' : BaseLayer} (h : g.layerFromKey k = .ok b) (hk : (∃ l l', b = .static l ∧ b' = .static l') ∨ ∃ l l', b = .dyn l ∧ b' = .dyn l')
    (e : Exc) : (g.setLayer k b').layerFromKey k ≠ .throw e := by
  have hb := layerFromKey_iff.1 h
  cases k with
  | static l =>
    simp only [layerAt?, Option.map_eq_some_iff] at hb
    obtain ⟨x, hx, rfl⟩ := hb
    rcases hk with ⟨u, w, hu, rfl⟩ | ⟨u, w, hu, rfl⟩
    · simp [setLayer, layerFromKey]
    · cases hu
  | dyn l p =>
    simp only [layerAt?, Option.map_eq_some_iff] at hb
    obtain ⟨x, hx, rfl⟩ := hb
    rcases hk with ⟨u, w, hu, rfl⟩ | ⟨u, w, hu, rfl⟩
    · cases hu
    · simp [setLayer, layerFromKey, setDyn]

theorem strong_setEdgeAttributesT (s t i) (g : Graph) : (setEdgeAttributesT s t i).Strong g := by
  unfold setEdgeAttributesT
  refine Strong.ofRead (fun ks _ => Strong.ofRead (fun kt _ => Strong.bind (strong_findEdgeInT s t ks kt g) (fun e g' he => ?_)))
  cases e with
  | none => exact .inl (calm_pure _ _)
  | some e =>
    refine .inl (Calm.bind (calm_read (fun e' he' => ?_)) (fun _ _ _ => Calm.bind (calm_set _ _) (fun _ _ _ => calm_pure _ _)))
    have he := of_res he
    rw [res_findEdgeInT] at he
    unfold findEdgeIn at he
    unfold setInfoIn at he'
    split at he
    · rename_i hk
      simp only [hk, if_true] at he'
      obtain ⟨b, hb, he⟩ := bind_eq_ok he
      simp only [Res.pure_eq, Res.ok.injEq, Prod.mk.injEq] at he
      rw [← he.1] at he'
      clear he
      cases hx : (g.setLayer ks (b.setEc (b.ec.find s t).1)).layerFromKey kt with
      | throw e2 =>
        rw [← hk] at hx
        refine layerFromKey_setLayer hb ?_ _ hx
        cases b with
        | static l => exact .inl ⟨_, _, rfl, rfl⟩
        | dyn l => exact .inr ⟨_, _, rfl, rfl⟩
      | ok b' => rw [hx] at he'; cases he'
      | ub => rw [hx] at he'; cases he'
    · rename_i hk
      simp only [hk, if_false] at he'
      split at he' <;> cases he'

theorem strong_addOrUpdateEdgeT (s t i) (g : Graph) : (addOrUpdateEdgeT s t i).Strong g := by
  unfold addOrUpdateEdgeT
  refine Strong.ofRead (fun b _ => ?_)
  split
  · exact strong_setEdgeAttributesT s t i g
  · exact strong_insertEdgeT s t i g

theorem strong_ansT {m : Act Graph Bool} (h : m.Strong g) : (ansT m).Strong g := Strong.bind h (fun _ _ _ => .inl (calm_pure _ _))
theorem strong_totalT {α : Type} (f : Graph → Graph × α) (g : Graph) : (totalT f).Strong g := fun _ _ h => by cases h

/-- Calls of the write-through model and of the other model give the same answers. -/
theorem stepT_ok {op : Op} {g' : Graph} {out : Out} (h : g.step op = .ok (g', out)) : stepT op g = .ok out g' := by
  have := res_stepT op g
  rw [h] at this
  unfold Act.res at this
  cases hs : stepT op g with
  | ok a s => rw [hs] at this; cases this; rfl
  | throw e s => rw [hs] at this; cases this
  | ub => rw [hs] at this; cases this
theorem stepT_throw {op : Op} {e : Exc} (h : g.step op = .throw e) (hs : (stepT op).Strong g) : stepT op g = .throw e g := by
  have := res_stepT op g
  rw [h] at this
  unfold Act.res at this
  cases hq : stepT op g with
  | ok a s => rw [hq] at this; cases this
  | throw e' s => rw [hq] at this; cases this; rw [hs _ _ hq]
  | ub => rw [hq] at this; cases this

/-- A merge that throws on its first lookup has written nothing. -/
theorem strong_mergeNodesT {f t : NodeId} {k : LayerKey} (hf : g.lookup.find? f = some k) {e : Exc} (h : g.staticNode k.layer f = .throw e) :
    (mergeNodesT f t).Strong g := by
  unfold mergeNodesT
  refine Strong.ofGet ?_
  rw [hf]
  cases g.lookup.find? t with
  | none => exact (calm_pure _ _).strong
  | some kt =>
    simp only
    split
    · exact (calm_pure _ _).strong
    split
    · exact (calm_pure _ _).strong
    · exact Strong.ofRead (fun x hx => by rw [h] at hx; cases hx)
end Graph
end Verif
