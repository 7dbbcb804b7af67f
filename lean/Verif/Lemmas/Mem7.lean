import Verif.Lemmas.Mem6
import Verif.Lemmas.Keeps
/-!
# What every history keeps, careless or not

No stored node lacks attributes; no stored edge does (`F`: unless null attributes were passed for an existing edge); a trajectory that was
only ever appended to (`A`) has as many slots as its counter says, and no more than the number of calls so far (`N`).
-/

namespace Verif
open Res (Keeps)

theorem EdgeContainer.Full.of_edges {c c' : EdgeContainer} (h : c.Full) (e : c'.edges = c.edges) : c'.Full := by
  intro k x hx; rw [e] at hx; exact h k x hx
theorem EdgeContainer.Full.setInfo {c : EdgeContainer} (h : c.Full) (k : EdgeKey) {i : Option EdgeAttrs} (hi : i.isSome = true) :
    (c.setInfo k i).Full := by
  intro k' e he
  unfold EdgeContainer.setInfo at he
  cases hq : c.edges.find? k with
  | none => rw [hq] at he; exact h _ _ he
  | some e' =>
    rw [hq] at he
    simp only [OMap.find?_insert] at he
    split at he
    · cases he; exact hi
    · exact h _ _ he

/-- Every stored edge has a status other than "deleted" and, if `F`, attributes. -/
structure EdgeContainer.Nice (F : Prop) (c : EdgeContainer) : Prop where
  stated : ∀ k, c.edges.contains k = true → ∃ s, c.status.find? k = some s ∧ s ≠ .deleted
  full : F → c.Full

/-- The same edges, with marks and stati tidied up. -/
structure EdgeContainer.Tidied (c c' : EdgeContainer) : Prop where
  edges : c'.edges = c.edges
  status : ∀ k s, c.status.find? k = some s → s ≠ .deleted → ∃ s', c'.status.find? k = some s' ∧ s' ≠ .deleted

namespace EdgeContainer
theorem Tidied.refl (c : EdgeContainer) : Tidied c c := ⟨rfl, fun _ s h h' => ⟨s, h, h'⟩⟩
theorem tidied_setStale (c : EdgeContainer) : Tidied c c.setStale := ⟨rfl, fun _ s h h' => ⟨s, h, h'⟩⟩
theorem tidied_getNew (c : EdgeContainer) (b : Bool) : Tidied c (c.getNew b).1 := by
  refine ⟨rfl, fun k s h h' => ?_⟩
  cases b
  · exact ⟨s, h, h'⟩
  · simp only [getNew, if_true, OMap.find?_map, h, Option.map_some]
    exact ⟨_, rfl, by split <;> simp_all⟩
theorem tidied_getRemoved (c : EdgeContainer) (b : Bool) : Tidied c (c.getRemoved b).1 := by
  refine ⟨rfl, fun k s h h' => ?_⟩
  cases b
  · exact ⟨s, h, h'⟩
  · simp only [getRemoved, if_true, OMap.find?_filter, h]
    exact ⟨s, by simp [h'], h'⟩
namespace Nice
variable {F : Prop} {c : EdgeContainer}
theorem empty : Nice F {} := ⟨fun k h => by simp [OMap.contains] at h, fun _ k e h => by simp at h⟩
theorem weaken (h : c.Nice F) {F' : Prop} (hF : F' → F) : c.Nice F' := ⟨h.stated, fun f => h.full (hF f)⟩
theorem tidied (h : c.Nice F) {c' : EdgeContainer} (e : Tidied c c') : c'.Nice F := by
  refine ⟨fun k hk => ?_, fun hF => (h.full hF).of_edges e.edges⟩
  rw [e.edges] at hk
  obtain ⟨s, h1, h2⟩ := h.stated k hk
  exact e.status k s h1 h2
theorem insert (h : c.Nice F) (s t : NodeId) (i : Option EdgeAttrs) : (c.insert s t i).Nice F := by
  refine ⟨fun k hk => ?_, fun hF => (h.full hF).insert _ _ _⟩
  simp only [EdgeContainer.insert, OMap.find?_insert] at hk ⊢
  split
  · exact ⟨_, rfl, by decide⟩
  · rename_i hn
    refine h.stated k ?_
    simpa [OMap.contains, OMap.find?_emplace, hn] using hk
theorem find (h : c.Nice F) (s t : NodeId) : (c.find s t).1.Nice F := by
  refine h.tidied ⟨?_, fun k s' h1 h2 => ⟨s', ?_, h2⟩⟩ <;> simp only [EdgeContainer.find, EdgeContainer.findKey] <;>
    cases c.edges.find? (EdgeKey.of s t) <;> first | rfl | exact h1
theorem remove (h : c.Nice F) {s t : NodeId} {c' : EdgeContainer} (e : c.remove s t = .ok c') : c'.Nice F := by
  refine ⟨fun k hk => ?_, fun hF => (h.full hF).remove e⟩
  simp only [EdgeContainer.remove] at e
  cases hq : c.status.find? (EdgeKey.of s t) with
  | none => simp [hq] at e
  | some z =>
    simp only [hq, Res.at?_some, Res.bind_ok, Res.pure_eq, Res.ok.injEq] at e
    subst e
    simp only [OMap.contains_erase, OMap.find?_insert, Bool.and_eq_true] at hk ⊢
    by_cases hn : EdgeKey.of s t = k
    · subst hn; simp at hk
    · rw [if_neg hn]; exact h.stated k hk.2
theorem setInfo (h : c.Nice F) (k : EdgeKey) {i : Option EdgeAttrs} (hi : F → i.isSome = true) : (c.setInfo k i).Nice F := by
  refine ⟨fun k' hk => ?_, fun hF => (h.full hF).setInfo k (hi hF)⟩
  unfold EdgeContainer.setInfo at hk ⊢
  cases hq : c.edges.find? k with
  | none => rw [hq] at hk; exact h.stated k' hk
  | some e =>
    rw [hq] at hk
    simp only [OMap.contains_insert, Bool.or_eq_true, decide_eq_true_eq] at hk ⊢
    rcases hk with hk | hk
    · have hk : k = k' := by simpa using hk
      subst hk; exact h.stated _ (by simp [OMap.contains, hq])
    · exact h.stated _ hk
/-- A stored edge can be removed. -/
theorem remove_ok (h : c.Nice F) {s t : NodeId} (e : c.contains s t = true) : ∃ c', c.remove s t = .ok c' := by
  obtain ⟨z, h1, -⟩ := h.stated _ e
  simp [EdgeContainer.remove, h1]
end Nice
end EdgeContainer

/-! ## Static layers -/

/-- A static layer none of whose pointers is null. -/
structure Layer.Tame (F : Prop) (l : Layer) : Prop where
  attrs : ∀ n y, l.nodes.find? n = some y → y.attrs.isSome = true
  full : l.edges.Nice F

namespace Layer.Tame
variable {F : Prop} {l : Layer}

theorem empty (id : LayerId) : Layer.Tame F { id := id } :=
  ⟨fun n y h => by simp at h, .empty⟩
theorem setEdges (h : l.Tame F) {c : EdgeContainer} (hc : c.Nice F) : Layer.Tame F { l with edges := c } := ⟨h.attrs, hc⟩
theorem modNode (h : l.Tame F) (n : NodeId) {f : Node → Node} (hf : ∀ y, y.attrs.isSome = true → (f y).attrs.isSome = true) :
    Keeps (Layer.Tame F) (l.modNode n f) := by
  unfold Layer.modNode
  split
  · exact Keeps.ub
  · rename_i x hx
    refine Keeps.ok ⟨?_, h.full⟩
    intro m y hy
    simp only [OMap.find?_insert] at hy
    split at hy
    · cases hy; exact hf _ (h.attrs _ _ hx)
    · exact h.attrs _ _ hy
theorem insertEdge (h : l.Tame F) (s t : NodeId) (i : Option EdgeAttrs) : Keeps (fun r => r.1.Tame F) (l.insertEdge s t i) := by
  unfold Layer.insertEdge
  repeat (split; · exact Keeps.ok h)
  refine Keeps.bind (h.modNode s (fun _ h => h)) (fun l h => Keeps.bind (Layer.Tame.modNode h t (fun _ h => h)) (fun l h => ?_))
  exact Keeps.pure (h.setEdges (h.full.insert _ _ _))
theorem removeEdge (h : l.Tame F) (s t : NodeId) : Keeps (fun r => r.1.Tame F) (l.removeEdge s t) := by
  unfold Layer.removeEdge
  split
  · exact Keeps.ok h
  refine Keeps.bind (h.modNode s (fun _ h => h)) (fun l h => Keeps.bind (Layer.Tame.modNode h t (fun _ h => h)) (fun l h => ?_))
  refine Keeps.bind (P := fun c => c.Nice F) ⟨fun c hc => h.full.remove hc⟩ (fun c hc => Keeps.pure (h.setEdges hc))
theorem erase (h : l.Tame F) (n : NodeId) (s : OMap NodeId NodeStatus) : Layer.Tame F { l with nodes := l.nodes.erase n, status := s } := by
  refine ⟨?_, h.full⟩
  intro m y hy
  simp only [OMap.find?_erase] at hy
  split at hy
  · cases hy
  · exact h.attrs _ _ hy
theorem removeNode (h : l.Tame F) (n : NodeId) : Keeps (fun r => r.1.Tame F) (l.removeNode n) := by
  unfold Layer.removeNode
  split
  · exact Keeps.ok h
  refine Keeps.bind (Keeps.fold (fun l t h => Keeps.bind (Layer.Tame.removeEdge h n t) (fun _ h => Keeps.ok h)) _ h) (fun l h => ?_)
  exact Keeps.pure (h.erase _ _)
theorem rewireEdge (h : l.Tame F) (s t s' t' : NodeId) : Keeps (fun r => r.1.Tame F) (l.rewireEdge s t s' t') := by
  unfold Layer.rewireEdge
  split
  · exact Keeps.ok h
  split
  · exact Keeps.ok h
  split
  · exact Keeps.ok h
  split
  · exact Keeps.bind (h.removeEdge ..) (fun _ h => Keeps.pure h)
  refine Keeps.bind (P := fun c => c.Nice F) ?_ (fun c hc => ?_)
  · unfold EdgeContainer.rewire
    dsimp only
    cases hq : (l.edges.findKey (EdgeKey.of s t)).2 with
    | none => exact Keeps.pure (h.full.find s t)
    | some e =>
      refine Keeps.skip (fun a => Keeps.skip (fun _ => Keeps.bind (P := fun c => c.Nice F) ⟨?_⟩ (fun c hc => Keeps.pure (hc.insert _ _ _))))
      intro c hc
      refine EdgeContainer.Nice.remove ?_ hc
      refine EdgeContainer.Nice.tidied (c := (l.edges.find s t).1) (h.full.find s t) ⟨rfl, fun k z h1 h2 => ?_⟩
      show ∃ s', OMap.find? (OMap.insert (l.edges.find s t).1.status _ _) k = some s' ∧ _
      rw [OMap.find?_insert]
      split
      · exact ⟨_, rfl, by decide⟩
      · exact ⟨z, h1, h2⟩
  · have h1 := h.setEdges hc
    refine Keeps.bind (h1.modNode s (fun _ h => h)) (fun l h => Keeps.bind (Layer.Tame.modNode h t (fun _ h => h)) (fun l h => ?_))
    refine Keeps.bind (Layer.Tame.modNode h s' (fun _ h => h)) (fun l h => Keeps.bind (Layer.Tame.modNode h t' (fun _ h => h)) (fun l h => ?_))
    exact Keeps.pure h
theorem mergeNodes (h : l.Tame F) (f t : NodeId) : Keeps (fun r => r.1.Tame F) (l.mergeNodes f t) := by
  unfold Layer.mergeNodes
  split
  · exact Keeps.ok h
  split
  · exact Keeps.ok h
  split
  · exact Keeps.ok h
  refine Keeps.bind (Keeps.fold (fun l u h => Keeps.bind (Layer.Tame.rewireEdge h ..) (fun _ h => Keeps.ok h)) _ h) (fun l h => ?_)
  exact Keeps.pure (h.erase _ _)
theorem emplaceNode (h : l.Tame F) (n : NodeId) (a : NodeAttrs) : (l.emplaceNode n (some a)).1.Tame F := by
  refine ⟨?_, h.full⟩
  intro m y hy
  simp only [Layer.emplaceNode, OMap.find?_emplace] at hy
  split at hy
  · cases hq : l.nodes.find? n with
    | none => rw [hq] at hy; cases hy; rfl
    | some z => rw [hq] at hy; cases hy; exact h.attrs _ _ hq
  · exact h.attrs _ _ hy
theorem insertNode (h : l.Tame F) (x : Node) (hx : x.attrs.isSome = true) : (l.insertNode x).1.Tame F := by
  unfold Layer.insertNode
  split
  · exact h
  split
  · exact h
  refine ⟨?_, h.full⟩
  intro m y hy
  simp only [OMap.find?_insert] at hy
  split at hy
  · cases hy; exact hx
  · exact h.attrs _ _ hy
end Layer.Tame

/-! ## Dynamic layers -/

/-- A dynamic layer none of whose nodes and edges lacks attributes. -/
structure DynLayer.Tame (A : Prop) (N : Nat) (F : Prop) (d : DynLayer) : Prop where
  attrs : ∀ (i : Nat) (y : Node), d.nodes[i]? = some (some y) → y.attrs.isSome = true
  full : d.edges.Nice F
  count : A → d.next = d.nodes.length ∧ d.nodes.length ≤ N

namespace DynLayer.Tame
variable {A F : Prop} {N : Nat} {d : DynLayer}

theorem mono (h : d.Tame A N F) {M : Nat} (hM : N ≤ M) : d.Tame A M F :=
  ⟨h.attrs, h.full, fun a => ⟨(h.count a).1, Nat.le_trans (h.count a).2 hM⟩⟩
theorem empty (l : LayerId) (p : Prefix) : DynLayer.Tame A N F { id := l, pre := p } :=
  ⟨fun n y h => by simp at h, .empty, fun _ => ⟨rfl, Nat.zero_le _⟩⟩
theorem setEdges (h : d.Tame A N F) {c : EdgeContainer} (hc : c.Nice F) : DynLayer.Tame A N F { d with edges := c } :=
  ⟨h.attrs, hc, h.count⟩
theorem set (h : d.Tame A N F) (i : Nat) (o : Option Node) (ho : ∀ y, o = some y → y.attrs.isSome = true) (s : OMap Nat NodeStatus) (t : OSet Stamp) :
    DynLayer.Tame A N F { d with nodes := d.nodes.set i o, status := s, times := t } := by
  refine ⟨?_, h.full, fun a => by simpa using h.count a⟩
  intro j y hy
  simp only [List.getElem?_set] at hy
  split at hy
  · split at hy
    · cases hy; exact ho _ rfl
    · cases hy
  · exact h.attrs _ _ hy
theorem modIdx (h : d.Tame A N F) (i : Nat) {f : Node → Node} (hf : ∀ y, y.attrs.isSome = true → (f y).attrs.isSome = true) :
    Keeps (DynLayer.Tame A N F) (d.modIdx i f) := by
  refine Keeps.bind (P := fun p => ∀ x, p = some x → x.attrs.isSome = true) ⟨?_⟩ (fun p hp => ?_)
  · intro p hp x hx
    subst hx
    unfold DynLayer.slot at hp
    split at hp
    · cases hp
    · rename_i q hq; cases hp; exact h.attrs _ _ hq
  · cases p with
    | none => exact Keeps.ub
    | some x => exact Keeps.pure (h.set i _ (fun y e => by cases e; exact hf _ (hp x rfl)) d.status d.times)
theorem insertEdge (h : d.Tame A N F) (s t : NodeId) (i : Option EdgeAttrs) : Keeps (fun r => r.1.Tame A N F) (d.insertEdge s t i) := by
  unfold DynLayer.insertEdge
  repeat (split; · exact Keeps.ok h)
  refine Keeps.bind (h.modIdx _ (fun _ h => h)) (fun l h => Keeps.bind (DynLayer.Tame.modIdx h _ (fun _ h => h)) (fun l h => ?_))
  exact Keeps.pure (h.setEdges (h.full.insert _ _ _))
theorem removeEdge (h : d.Tame A N F) (s t : NodeId) : Keeps (fun r => r.1.Tame A N F) (d.removeEdge s t) := by
  unfold DynLayer.removeEdge
  split
  · exact Keeps.ok h
  refine Keeps.bind (h.modIdx _ (fun _ h => h)) (fun l h => Keeps.bind (DynLayer.Tame.modIdx h _ (fun _ h => h)) (fun l h => ?_))
  refine Keeps.bind (P := fun c => c.Nice F) ⟨fun c hc => h.full.remove hc⟩ (fun c hc => Keeps.pure (h.setEdges hc))
theorem removeNode (h : d.Tame A N F) (n : NodeId) : Keeps (fun r => r.1.Tame A N F) (d.removeNode n) := by
  unfold DynLayer.removeNode
  split
  · exact Keeps.ok h
  dsimp only
  refine Keeps.skip (fun p => Keeps.skip (fun x => ?_))
  have rest : ∀ d1 : DynLayer, d1.Tame A N F → Keeps (fun r : DynLayer × Bool => r.1.Tame A N F)
      (foldRes (fun l t => (l.removeEdge n t) >>= fun r => Res.ok r.1) d1 x.siblings.keys >>= fun l =>
          Res.at? ({ l with status := l.status.insert (d.pre.index n) .deleted } : DynLayer).nodes[d.pre.index n]? >>= fun p =>
          Res.deref p >>= fun x => Res.deref x.timestamp >>= fun st =>
            (pure ({ l with status := l.status.insert (d.pre.index n) .deleted, times := l.times.erase st, nodes := l.nodes.set (d.pre.index n) none }, true) : Res (DynLayer × Bool))) := by
    intro d1 h1
    refine Keeps.bind (Keeps.fold (fun l t h => Keeps.bind (DynLayer.Tame.removeEdge h n t) (fun _ h => Keeps.ok h)) _ h1) (fun l h => ?_)
    refine Keeps.skip (fun _ => Keeps.skip (fun _ => Keeps.skip (fun st => Keeps.pure ?_)))
    exact h.set _ none (fun y e => by cases e) _ _
  split
  · exact Keeps.bind (h.insertEdge ..) (fun r h => rest r.1 h)
  · exact rest d h
/-- Appending: one more slot. -/
theorem emplaceNode (h : d.Tame A N F) (t : Stamp) (a : NodeAttrs) (link : Bool) :
    Keeps (fun r => r.1.Tame A (N + 1) F) (d.emplaceNode t (some a) link) := by
  unfold DynLayer.emplaceNode
  split
  · exact Keeps.ok (h.mono (Nat.le_succ _))
  dsimp only
  -- between the push and the increment of the counter
  have hp : ∀ (s : OMap Nat NodeStatus) (x : Node), x.attrs.isSome = true →
      DynLayer.Tame False 0 F { d with times := d.times.add t, nodes := d.nodes ++ [some x], status := s } := by
    intro s x hx
    refine ⟨?_, h.full, fun h => h.elim⟩
    intro i y hy
    have hy : (d.nodes ++ [some x])[i]? = some (some y) := hy
    rw [List.getElem?_append] at hy
    split at hy
    · exact h.attrs _ _ hy
    · rw [List.getElem?_singleton] at hy
      split at hy
      · cases hy; exact hx
      · cases hy
  have cnt : ∀ {d1 d2 : DynLayer} {s t : NodeId} {i : Option EdgeAttrs} {b : Bool}, d1.insertEdge s t i = .ok (d2, b) →
      d2.next = d1.next ∧ d2.nodes.length = d1.nodes.length := by
    intro d1 d2 s t i b e
    have hm : ∀ {l l' : DynLayer} {n : Nat} {f : Node → Node}, l.modIdx n f = .ok l' → l'.next = l.next ∧ l'.nodes.length = l.nodes.length := by
      intro l l' n f hq
      unfold DynLayer.modIdx at hq
      obtain ⟨p, -, hq⟩ := bind_eq_ok hq
      obtain ⟨x, -, hq⟩ := bind_eq_ok hq
      cases hq
      exact ⟨rfl, by simp⟩
    unfold DynLayer.insertEdge at e
    split at e
    · cases e; exact ⟨rfl, rfl⟩
    split at e
    · cases e; exact ⟨rfl, rfl⟩
    split at e
    · cases e; exact ⟨rfl, rfl⟩
    obtain ⟨l1, e1, e⟩ := bind_eq_ok e
    obtain ⟨l2, e2, e⟩ := bind_eq_ok e
    cases e
    exact ⟨(hm e2).1.trans (hm e1).1, (hm e2).2.trans (hm e1).2⟩
  have fin : ∀ d2 : DynLayer, DynLayer.Tame False 0 F d2 → d2.next = d.next → d2.nodes.length = d.nodes.length + 1 →
      DynLayer.Tame A (N + 1) F { d2 with next := d2.next + 1 } := by
    intro d2 h2 e1 e2
    refine ⟨h2.attrs, h2.full, fun hA => ?_⟩
    obtain ⟨c1, c2⟩ := h.count hA
    show d2.next + 1 = d2.nodes.length ∧ d2.nodes.length ≤ N + 1
    omega
  split
  · refine Keeps.bind (P := fun r : DynLayer × Bool => DynLayer.Tame False 0 F r.1 ∧ r.1.next = d.next ∧ r.1.nodes.length = d.nodes.length + 1)
      ⟨?_⟩ (fun r hd2 => Keeps.pure (fin r.1 hd2.1 hd2.2.1 hd2.2.2))
    rintro ⟨d2, b⟩ e
    refine ⟨(DynLayer.Tame.insertEdge (hp _ _ rfl) _ _ _).get _ e, (cnt e).1, ?_⟩
    rw [(cnt e).2]; simp
  · exact Keeps.pure (fin _ (hp _ _ rfl) rfl (by simp))
/-- Back-filling: the counter is not kept. -/
theorem emplaceNodeAtIndex (h : d.Tame A N F) (hA : ¬ A) (t : Stamp) (i : Nat) (a : NodeAttrs) :
    (d.emplaceNodeAtIndex t i (some a)).1.Tame A N F := by
  have hpad : ∀ k (d : DynLayer), d.Tame A N F → (d.pad k).Tame A N F := by
    intro k
    induction k with
    | zero => intro d h; exact h
    | succ k ih =>
      intro d h
      refine ih _ ⟨?_, h.full, fun a => (hA a).elim⟩
      intro i y hy
      have hy : (d.nodes ++ [none])[i]? = some (some y) := hy
      rw [List.getElem?_append] at hy
      split at hy
      · exact h.attrs _ _ hy
      · rw [List.getElem?_singleton] at hy
        split at hy <;> cases hy
  unfold DynLayer.emplaceNodeAtIndex
  split
  · exact h
  dsimp only
  split
  · exact (hpad _ d h).set _ _ (fun y e => by cases e; rfl) _ _
  · exact h.set _ _ (fun y e => by cases e; rfl) _ _
end DynLayer.Tame

/-! ## Graphs -/

/-- A layer none of whose pointers is null. -/
def BaseLayer.Tame (A : Prop) (N : Nat) (F : Prop) : BaseLayer → Prop
  | .static l => l.Tame F
  | .dyn d => d.Tame A N F

namespace BaseLayer.Tame
variable {A F : Prop} {N : Nat} {b : BaseLayer}
theorem ec (h : b.Tame A N F) : b.ec.Nice F := by cases b <;> exact h.full
theorem setEc (h : b.Tame A N F) {c : EdgeContainer} (hc : c.Nice F) : (b.setEc c).Tame A N F := by
  cases b
  · exact Layer.Tame.setEdges h hc
  · exact DynLayer.Tame.setEdges h hc
theorem insertEdge (h : b.Tame A N F) (s t : NodeId) (i : Option EdgeAttrs) : Keeps (fun r => r.1.Tame A N F) (b.insertEdge s t i) := by
  cases b
  · exact Keeps.bind (Layer.Tame.insertEdge h s t i) (fun _ h => Keeps.ok h)
  · exact Keeps.bind (DynLayer.Tame.insertEdge h s t i) (fun _ h => Keeps.ok h)
theorem removeEdge (h : b.Tame A N F) (s t : NodeId) : Keeps (fun r => r.1.Tame A N F) (b.removeEdge s t) := by
  cases b
  · exact Keeps.bind (Layer.Tame.removeEdge h s t) (fun _ h => Keeps.ok h)
  · exact Keeps.bind (DynLayer.Tame.removeEdge h s t) (fun _ h => Keeps.ok h)
theorem removeNode (h : b.Tame A N F) (n : NodeId) : Keeps (fun r => r.1.Tame A N F) (b.removeNode n) := by
  cases b
  · exact Keeps.bind (Layer.Tame.removeNode h n) (fun _ h => Keeps.ok h)
  · exact Keeps.bind (DynLayer.Tame.removeNode h n) (fun _ h => Keeps.ok h)
end BaseLayer.Tame

namespace Graph

/-- None of the pointers stored in the graph is null; the trajectories in `A` have the slots their counters say, at most `N`. -/
structure Tame (A : LayerId → Prefix → Prop) (N : Nat) (F : Prop) (g : Graph) : Prop where
  stat : ∀ l x, g.layers.find? l = some x → x.Tame F
  dyn : ∀ l p d, g.dynLayer? l p = some d → d.Tame (A l p) N F
  inter : g.inter.Nice F
  dynInter : g.dynInter.Nice F

namespace Tame
variable {A : LayerId → Prefix → Prop} {F : Prop} {N : Nat} {g : Graph}

theorem mono (h : g.Tame A N F) {M : Nat} (hM : N ≤ M) : g.Tame A M F := ⟨h.stat, fun l p d hd => (h.dyn l p d hd).mono hM, h.inter, h.dynInter⟩

theorem of_fields (h : g.Tame A N F) {g' : Graph} (e1 : g'.layers = g.layers) (e2 : g'.dyns = g.dyns) (e3 : g'.inter = g.inter)
    (e4 : g'.dynInter = g.dynInter) : g'.Tame A N F := by
  refine ⟨?_, ?_, ?_, ?_⟩
  · rw [e1]; exact h.stat
  · intro l p d hd; unfold dynLayer? at hd; rw [e2] at hd; exact h.dyn l p d hd
  · rw [e3]; exact h.inter
  · rw [e4]; exact h.dynInter

theorem setStat (h : g.Tame A N F) (l : LayerId) {x : Layer} (hx : x.Tame F) (L : OMap NodeId LayerKey) :
    Tame A N F { g with layers := g.layers.insert l x, lookup := L } := by
  refine ⟨?_, h.dyn, h.inter, h.dynInter⟩
  intro l' y hy
  simp only [OMap.find?_insert] at hy
  split at hy
  · cases hy; exact hx
  · exact h.stat _ _ hy

theorem setDyn (h : g.Tame A N F) (l : LayerId) (p : Prefix) {d : DynLayer} (hd : d.Tame (A l p) N F) : (g.setDyn l p d).Tame A N F := by
  refine ⟨h.stat, ?_, h.inter, h.dynInter⟩
  intro l' p' d' hd'
  rw [dynLayer?_setDyn] at hd'
  split at hd'
  · rename_i e; obtain ⟨rfl, rfl⟩ := e; cases hd'; exact hd
  · exact h.dyn _ _ _ hd'

/-- The trajectories a layer key speaks of. -/
def of (A : LayerId → Prefix → Prop) : LayerKey → Prop
  | .static _ => True
  | .dyn l p => A l p

theorem setLayer (h : g.Tame A N F) (k : LayerKey) {b : BaseLayer} (hb : b.Tame (of A k) N F) : (g.setLayer k b).Tame A N F := by
  unfold Graph.setLayer
  split
  · exact h.setStat _ hb _
  · exact h.setDyn _ _ hb
  · exact h

theorem layerFromKey (h : g.Tame A N F) (k : LayerKey) : Keeps (fun b => b.Tame (of A k) N F) (g.layerFromKey k) := by
  cases k with
  | static l =>
    constructor
    intro b hb
    obtain ⟨x, e, hb⟩ := bind_eq_ok hb
    cases hb
    cases hq : g.layers.find? l with
    | none => rw [hq] at e; cases e
    | some y => rw [hq] at e; cases e; exact h.stat _ _ hq
  | dyn l p =>
    constructor
    intro b hb
    obtain ⟨m, e, hb⟩ := bind_eq_ok hb
    obtain ⟨d, e', hb⟩ := bind_eq_ok hb
    cases hb
    cases hq : g.dyns.find? l with
    | none => rw [hq] at e; cases e
    | some y =>
      rw [hq] at e; cases e
      cases hq' : m.find? p with
      | none => rw [hq'] at e'; cases e'
      | some y => rw [hq'] at e'; cases e'; exact h.dyn l p _ (by simp [dynLayer?, hq, hq'])

theorem create (h : g.Tame A N F) (l : LayerId) (p : Prefix) : (g.createDynamicLayer l p).1.Tame A N F := by
  unfold createDynamicLayer
  split
  · exact h
  · exact h.setDyn _ _ (DynLayer.Tame.empty l p)

theorem getNodePtr (h : g.Tame A N F) (n : NodeId) (k : LayerKey) : Keeps (fun p => ∀ x, p = some x → x.attrs.isSome = true) (g.getNodePtr n k) := by
  constructor
  intro q hq x hx
  subst hx
  cases k with
  | static l =>
    obtain ⟨y, e, hq⟩ := bind_eq_ok hq
    obtain ⟨z, e', hq⟩ := bind_eq_ok hq
    cases hq
    cases hl : g.layers.find? l with
    | none => rw [hl] at e; cases e
    | some y =>
      rw [hl] at e; cases e
      cases hn : y.nodes.find? n with
      | none => rw [hn] at e'; cases e'
      | some y => rw [hn] at e'; cases e'; exact (h.stat _ _ hl).attrs _ _ hn
  | dyn l p =>
    obtain ⟨m, e, hq⟩ := bind_eq_ok hq
    obtain ⟨d, e', hq⟩ := bind_eq_ok hq
    cases hl : g.dyns.find? l with
    | none => rw [hl] at e; cases e
    | some y =>
      rw [hl] at e; cases e
      cases hl' : m.find? p with
      | none => rw [hl'] at e'; cases e'
      | some y =>
        rw [hl'] at e'; cases e'
        cases hn : d.nodes[(NodeSymbol.categoryId n).toNat]? with
        | none => rw [hn] at hq; cases hq
        | some y => rw [hn] at hq; cases hq; exact (h.dyn l p d (by simp [dynLayer?, hl, hl'])).attrs _ _ hn

theorem modNode (h : g.Tame A N F) (n : NodeId) (k : LayerKey) {f : Node → Node} (hf : ∀ y, y.attrs.isSome = true → (f y).attrs.isSome = true) :
    Keeps (Tame A N F) (g.modNode n k f) := by
  refine Keeps.bind (h.getNodePtr n k) (fun p hp => ?_)
  cases p with
  | none => exact Keeps.ub
  | some x =>
    have hx := hp x rfl
    show Keeps (Tame A N F) _
    simp only [Res.deref_some, Res.bind_ok]
    split <;> split
    · exact Keeps.ub
    · rename_i d hd
      exact Keeps.pure (h.setDyn _ _ ((h.dyn _ _ _ hd).set _ _ (fun y e => by cases e; exact hf _ hx) d.status d.times))
    · exact Keeps.ub
    · rename_i y hy
      refine Keeps.pure (h.setStat (x := { y with nodes := y.nodes.insert n (f x) }) _ ⟨?_, (h.stat _ _ hy).full⟩ _)
      intro m z hz
      simp only [OMap.find?_insert] at hz
      split at hz
      · cases hz; exact hf _ hx
      · exact (h.stat _ _ hy).attrs _ _ hz

theorem mods (h : g.Tame A N F) (n n' : NodeId) (k k' : LayerKey) {f f' : Node → Node} (hf : ∀ y, y.attrs.isSome = true → (f y).attrs.isSome = true)
    (hf' : ∀ y, y.attrs.isSome = true → (f' y).attrs.isSome = true) :
    Keeps (Tame A N F) (g.modNode n k f >>= fun g => g.modNode n' k' f') :=
  Keeps.bind (h.modNode n k hf) (fun _ h => h.modNode n' k' hf')

theorem addAncestry (h : g.Tame A N F) (s t : NodeId) (ks kt : LayerKey) : Keeps (Tame A N F) (g.addAncestry s t ks kt) := by
  refine Keeps.skip (fun _ => Keeps.skip (fun _ => ?_))
  split
  · exact h.mods _ _ _ _ (fun _ h => h) (fun _ h => h)
  split <;> exact h.mods _ _ _ _ (fun _ h => h) (fun _ h => h)

theorem removeAncestry (h : g.Tame A N F) (s t : NodeId) (ks kt : LayerKey) : Keeps (Tame A N F) (g.removeAncestry s t ks kt) := by
  refine Keeps.skip (fun _ => Keeps.skip (fun _ => ?_))
  split
  · exact h.mods _ _ _ _ (fun _ h => h) (fun _ h => h)
  split <;> exact h.mods _ _ _ _ (fun _ h => h) (fun _ h => h)

theorem setInter (h : g.Tame A N F) {c : EdgeContainer} (hc : c.Nice F) : Tame A N F { g with inter := c } := ⟨h.stat, h.dyn, hc, h.dynInter⟩
theorem setDynInter (h : g.Tame A N F) {c : EdgeContainer} (hc : c.Nice F) : Tame A N F { g with dynInter := c } := ⟨h.stat, h.dyn, h.inter, hc⟩

theorem insertInterlayer (h : g.Tame A N F) (s t : NodeId) (ks kt : LayerKey) (a : Option EdgeAttrs) :
    (g.insertInterlayer s t ks kt a).Tame A N F := by
  unfold Graph.insertInterlayer; split
  · exact h.setDynInter (h.dynInter.insert _ _ _)
  · exact h.setInter (h.inter.insert _ _ _)

theorem emplaceNode (h : g.Tame A N F) (l : LayerId) (n : NodeId) (a : NodeAttrs) : (g.emplaceNode l n (some a)).1.Tame A N F := by
  unfold Graph.emplaceNode
  split
  · exact h
  split
  · exact h
  rename_i x hx
  dsimp only
  split
  · exact h.setStat _ ((h.stat _ _ hx).emplaceNode n a) _
  · exact h.setStat _ ((h.stat _ _ hx).emplaceNode n a) _

theorem insertNode (h : g.Tame A N F) (n : NodeId) (l : LayerId) (st : Option Stamp) (a : NodeAttrs) : (g.insertNode (some (n, l, st, some a))).1.Tame A N F := by
  unfold Graph.insertNode
  dsimp only
  split
  · exact h
  split
  · exact h
  rename_i x hx
  split
  · exact h.setStat _ ((h.stat _ _ hx).insertNode _ rfl) _
  · exact h.setStat _ ((h.stat _ _ hx).insertNode _ rfl) _

theorem made (h : g.Tame A N F) (l : LayerId) (p : Prefix) :
    (if g.hasDynLayer l p = true then g else (g.createDynamicLayer l p).1).Tame A N F := by
  split
  · exact h
  · exact h.create _ _

theorem derefDyn (h : g.Tame A N F) (l : LayerId) (p : Prefix) : Keeps (fun d => d.Tame (A l p) N F) (Res.deref (g.dynLayer? l p)) := by
  constructor
  intro d hd
  cases hq : g.dynLayer? l p with
  | none => rw [hq] at hd; cases hd
  | some e => rw [hq] at hd; cases hd; exact h.dyn _ _ _ hq

theorem emplaceDyn (h : g.Tame A N F) (l p t a link) : Keeps (fun r => r.1.Tame A (N + 1) F) (g.emplaceDyn l p t (some a) link) := by
  unfold Graph.emplaceDyn
  dsimp only
  split
  · exact Keeps.ok (h.mono (Nat.le_succ _))
  refine Keeps.bind ((h.made l p).derefDyn l p) (fun d hd => Keeps.bind (hd.emplaceNode t a link) (fun r hr => ?_))
  have := ((h.made l p).mono (Nat.le_succ N)).setDyn l p hr
  split
  · exact Keeps.pure this
  · exact Keeps.pure (this.of_fields rfl rfl rfl rfl)

theorem emplacePrev (h : g.Tame A N F) (l n t a) (hA : ¬ A l (Prefix.fromId n)) : Keeps (fun r => r.1.Tame A N F) (g.emplacePrev l n t (some a)) := by
  unfold Graph.emplacePrev
  split
  · exact Keeps.ok h
  dsimp only
  refine Keeps.bind ((h.made l _).derefDyn l _) (fun d hd => ?_)
  have := (h.made l (Prefix.fromId n)).setDyn l _ (hd.emplaceNodeAtIndex hA t ((Prefix.fromId n).index n) a)
  split
  · exact Keeps.pure this
  · exact Keeps.pure (this.of_fields rfl rfl rfl rfl)

theorem setNodeAttributes (h : g.Tame A N F) (n) (a : NodeAttrs) : Keeps (fun r => r.1.Tame A N F) (g.setNodeAttributes n (some a)) := by
  unfold Graph.setNodeAttributes
  split
  · exact Keeps.ok h
  · exact Keeps.bind (h.modNode _ _ (fun _ _ => rfl)) (fun _ h => Keeps.pure h)

theorem addOrUpdateNode (h : g.Tame A N F) (l n) (a : NodeAttrs) (s) (hA : s.isSome = true → ¬ A l (Prefix.fromId n)) :
    Keeps (fun r => r.1.Tame A N F) (g.addOrUpdateNode l n (some a) s) := by
  unfold Graph.addOrUpdateNode
  split
  · exact Keeps.ok h
  rename_i x hx
  split
  · exact Keeps.bind (h.modNode _ _ (fun _ _ => rfl)) (fun _ h => Keeps.pure h)
  split
  · exact h.emplacePrev _ _ _ _ (hA rfl)
  dsimp only
  split <;> exact Keeps.ok (h.setStat _ ((h.stat _ _ hx).emplaceNode n a) _)

theorem insertEdge (h : g.Tame A N F) (s t a) : Keeps (fun r => r.1.Tame A N F) (g.insertEdge s t a) := by
  refine Keeps.skip (fun r => ?_)
  obtain ⟨has, ks, kt⟩ := r
  dsimp only
  split
  · exact Keeps.pure h
  split
  · exact Keeps.pure h
  split
  · exact Keeps.bind (h.layerFromKey ks) (fun b hb => Keeps.bind (hb.insertEdge ..) (fun _ hb => Keeps.pure (h.setLayer _ hb)))
  · exact Keeps.bind (h.addAncestry ..) (fun _ h => Keeps.pure (h.insertInterlayer ..))

theorem removeInterlayerEdge (h : g.Tame A N F) (s t ks kt) : Keeps (Tame A N F) (g.removeInterlayerEdge s t ks kt) := by
  refine Keeps.bind (h.removeAncestry ..) (fun g h => ?_)
  split
  · exact Keeps.bind (P := fun c => c.Nice F) ⟨fun c hc => h.dynInter.remove hc⟩ (fun c hc => Keeps.pure (h.setDynInter hc))
  · exact Keeps.bind (P := fun c => c.Nice F) ⟨fun c hc => h.inter.remove hc⟩ (fun c hc => Keeps.pure (h.setInter hc))

theorem removeInterlayerEdge' (h : g.Tame A N F) (s t) : Keeps (Tame A N F) (g.removeInterlayerEdge' s t) :=
  Keeps.skip (fun _ => Keeps.skip (fun _ => h.removeInterlayerEdge ..))

theorem removeEdge (h : g.Tame A N F) (s t) : Keeps (fun r => r.1.Tame A N F) (g.removeEdge s t) := by
  refine Keeps.skip (fun r => ?_)
  obtain ⟨has, ks, kt⟩ := r
  dsimp only
  split
  · exact Keeps.pure h
  split
  · exact Keeps.pure h
  split
  · exact Keeps.bind (h.layerFromKey ks) (fun b hb => Keeps.bind (hb.removeEdge ..) (fun _ hb => Keeps.pure (h.setLayer _ hb)))
  · exact Keeps.bind (h.removeInterlayerEdge ..) (fun _ h => Keeps.pure h)

theorem dropAllParents (h : g.Tame A N F) (s t ks kt) : Keeps (Tame A N F) (g.dropAllParents s t ks kt) := by
  refine Keeps.skip (fun _ => Keeps.skip (fun _ => Keeps.skip (fun _ => ?_)))
  refine Keeps.fold (fun g q h => ?_) _ h
  exact Keeps.bind (Tame.removeEdge h ..) (fun _ h => Keeps.ok h)

theorem insertParentEdge (h : g.Tame A N F) (s t a) : Keeps (fun r => r.1.Tame A N F) (g.insertParentEdge s t a) := by
  refine Keeps.skip (fun r => ?_)
  obtain ⟨has, ks, kt⟩ := r
  dsimp only
  split
  · exact Keeps.pure h
  split
  · exact Keeps.pure h
  split
  · refine Keeps.bind (h.dropAllParents ..) (fun _ h => ?_)
    exact Keeps.bind (Tame.addAncestry h ..) (fun _ h => Keeps.pure (Tame.insertInterlayer h ..))
  · exact Keeps.bind (Keeps.pure h) (fun _ h => Keeps.bind (Tame.addAncestry h ..) (fun _ h => Keeps.pure (Tame.insertInterlayer h ..)))

theorem findEdgeIn (h : g.Tame A N F) (s t ks kt) : Keeps (fun r => r.1.Tame A N F) (g.findEdgeIn s t ks kt) := by
  unfold Graph.findEdgeIn
  split
  · exact Keeps.bind (h.layerFromKey ks) (fun b hb => Keeps.pure (h.setLayer _ (hb.setEc (hb.ec.find s t))))
  split
  · exact Keeps.ok (h.setDynInter (h.dynInter.find s t))
  · exact Keeps.ok (h.setInter (h.inter.find s t))

theorem setInfoIn (h : g.Tame A N F) (s t ks kt) {a : Option EdgeAttrs} (ha : F → a.isSome = true) : Keeps (Tame A N F) (g.setInfoIn s t ks kt a) := by
  unfold Graph.setInfoIn
  split
  · exact Keeps.bind (h.layerFromKey ks) (fun b hb => Keeps.pure (h.setLayer _ (hb.setEc (hb.ec.setInfo _ ha))))
  split
  · exact Keeps.ok (h.setDynInter (h.dynInter.setInfo _ ha))
  · exact Keeps.ok (h.setInter (h.inter.setInfo _ ha))

theorem setEdgeAttributes (h : g.Tame A N F) (s t) {a : Option EdgeAttrs} (ha : F → a.isSome = true) : Keeps (fun r => r.1.Tame A N F) (g.setEdgeAttributes s t a) := by
  refine Keeps.skip (fun _ => Keeps.skip (fun _ => Keeps.bind (h.findEdgeIn ..) (fun r h => ?_)))
  obtain ⟨g, e⟩ := r
  dsimp only
  split
  · exact Keeps.pure h
  · exact Keeps.bind (Tame.setInfoIn h _ _ _ _ ha) (fun _ h => Keeps.pure h)

theorem addOrUpdateEdge (h : g.Tame A N F) (s t) {a : Option EdgeAttrs} (ha : F → a.isSome = true) : Keeps (fun r => r.1.Tame A N F) (g.addOrUpdateEdge s t a) := by
  refine Keeps.skip (fun _ => ?_)
  split
  · exact h.setEdgeAttributes _ _ ha
  · exact h.insertEdge ..

theorem removeNode (h : g.Tame A N F) (n) : Keeps (fun r => r.1.Tame A N F) (g.removeNode n) := by
  unfold Graph.removeNode
  split
  · exact Keeps.ok h
  refine Keeps.skip (fun _ => Keeps.skip (fun _ => ?_))
  refine Keeps.bind (Keeps.fold (fun g q h => Tame.removeInterlayerEdge' h ..) _ h) (fun _ h => ?_)
  refine Keeps.skip (fun _ => Keeps.skip (fun _ => ?_))
  refine Keeps.bind (Keeps.fold (fun g q h => Tame.removeInterlayerEdge' h ..) _ h) (fun _ h => ?_)
  refine Keeps.bind (Tame.layerFromKey h _) (fun b hb => Keeps.bind (hb.removeNode n) (fun r hb => ?_))
  exact Keeps.pure ((Tame.setLayer h _ hb).of_fields rfl rfl rfl rfl)

theorem rewireInterlayerEdge (h : g.Tame A N F) (s s' t) : Keeps (Tame A N F) (g.rewireInterlayerEdge s s' t) := by
  unfold Graph.rewireInterlayerEdge
  split
  · exact Keeps.ok h
  refine Keeps.skip (fun _ => Keeps.skip (fun r => ?_))
  obtain ⟨has, ks, kt⟩ := r
  dsimp only
  split
  · exact h.removeInterlayerEdge ..
  refine Keeps.bind (h.removeAncestry ..) (fun _ h => Keeps.bind (Tame.addAncestry h ..) (fun g h => ?_))
  have hd : Tame A N F { g with dynInter := (g.dynInter.find s t).1 } := h.setDynInter (h.dynInter.find s t)
  have hi : Tame A N F { g with inter := (g.inter.find s t).1 } := h.setInter (h.inter.find s t)
  refine Keeps.bind (P := fun (r : Graph × Option EdgeAttrs) => r.1.Tame A N F) ?_ (fun r h => ?_)
  · split <;> split
    · exact Keeps.pure hd
    · refine Keeps.skip (fun _ => Keeps.bind (P := fun c => c.Nice F) ⟨fun c hc => hd.dynInter.remove hc⟩ (fun c hc => Keeps.pure (hd.setDynInter hc)))
    · exact Keeps.pure hi
    · refine Keeps.skip (fun _ => Keeps.bind (P := fun c => c.Nice F) ⟨fun c hc => hi.inter.remove hc⟩ (fun c hc => Keeps.pure (hi.setInter hc)))
  · obtain ⟨g, a⟩ := r
    dsimp only
    split
    · exact Keeps.pure h
    · exact Keeps.pure (Tame.insertInterlayer h ..)

theorem derefStat (h : g.Tame A N F) (l : LayerId) : Keeps (fun x => x.Tame F) (Res.deref (g.layers.find? l)) := by
  constructor
  intro d hd
  cases hq : g.layers.find? l with
  | none => rw [hq] at hd; cases hd
  | some e => rw [hq] at hd; cases hd; exact h.stat _ _ hq

theorem mergeNodes (h : g.Tame A N F) (f t) : Keeps (fun r => r.1.Tame A N F) (g.mergeNodes f t) := by
  unfold Graph.mergeNodes
  split
  · split
    · exact Keeps.ok h
    split
    · exact Keeps.ok h
    refine Keeps.skip (fun _ => Keeps.skip (fun _ => ?_))
    refine Keeps.bind (Keeps.fold (fun g q h => Tame.rewireInterlayerEdge h ..) _ h) (fun _ h => ?_)
    refine Keeps.skip (fun _ => Keeps.skip (fun _ => ?_))
    refine Keeps.bind (Keeps.fold (fun g q h => Tame.rewireInterlayerEdge h ..) _ h) (fun _ h => ?_)
    refine Keeps.bind (Tame.derefStat h _) (fun l hl => Keeps.bind (hl.mergeNodes f t) (fun r hr => ?_))
    exact Keeps.pure (Tame.setStat h _ hr _)
  · exact Keeps.ok h

theorem removeStaleEdges (h : g.Tame A N F) (m) : Keeps (Tame A N F) (g.removeStaleEdges m) := by
  refine Keeps.fold (fun g e h => ?_) _ h
  split
  · exact Keeps.bind (Tame.removeEdge h ..) (fun _ h => Keeps.ok h)
  · exact Keeps.ok h

theorem removeAllStaleEdges (h : g.Tame A N F) : Keeps (Tame A N F) g.removeAllStaleEdges := by
  refine Keeps.bind (Keeps.fold (fun g e h => ?_) _ h) (fun _ h => Keeps.bind (Keeps.fold (fun g e h => ?_) _ h) (fun _ h => ?_))
  · unfold removeStaleStatic
    split
    · exact Keeps.ok h
    · exact Tame.removeStaleEdges h _
  · unfold removeStaleDyn
    split
    · exact Keeps.ok h
    · exact Tame.removeStaleEdges h _
  · exact Keeps.bind (Tame.removeStaleEdges h _) (fun _ h => Tame.removeStaleEdges h _)

/-- A change of bookkeeping in every layer. -/
theorem map (h : g.Tame A N F) {g' : Graph} (f : Layer → Layer) (f' : DynLayer → DynLayer) (e1 : g'.layers = g.layers.map (fun _ l => f l))
    (e2 : g'.dyns = g.dyns.map (fun _ m => m.map (fun _ d => f' d))) (e3 : g.inter.Tidied g'.inter) (e4 : g.dynInter.Tidied g'.dynInter)
    (hf : ∀ l, (f l).nodes = l.nodes ∧ l.edges.Tidied (f l).edges)
    (hf' : ∀ d, (f' d).nodes = d.nodes ∧ d.edges.Tidied (f' d).edges ∧ (f' d).next = d.next) : g'.Tame A N F := by
  refine ⟨?_, ?_, h.inter.tidied e3, h.dynInter.tidied e4⟩
  · intro l x hx
    rw [e1, OMap.find?_map] at hx
    cases hq : g.layers.find? l with
    | none => rw [hq] at hx; cases hx
    | some y =>
      rw [hq] at hx; cases hx
      have := h.stat _ _ hq
      exact ⟨by rw [(hf y).1]; exact this.attrs, this.full.tidied (hf y).2⟩
  · intro l p d hd
    unfold dynLayer? at hd
    rw [e2, OMap.find?_map] at hd
    cases hq : g.dyns.find? l with
    | none => rw [hq] at hd; cases hd
    | some m =>
      rw [hq] at hd
      simp only [Option.map_some, Option.bind_some, OMap.find?_map] at hd
      cases hq' : m.find? p with
      | none => rw [hq'] at hd; cases hd
      | some y =>
        rw [hq'] at hd; cases hd
        have := h.dyn l p y (by simp [dynLayer?, hq, hq'])
        obtain ⟨a1, a2, a3⟩ := hf' y
        exact ⟨by rw [a1]; exact this.attrs, this.full.tidied a2, fun hA => by rw [a3, a1]; exact this.count hA⟩

theorem clear (h : g.Tame A N F) (ids : List LayerId) : (g.reset ids).Tame A N F := by
  refine ⟨?_, ?_, ?_, ?_⟩
  · intro l x hx
    simp only [Graph.reset, Graph.clear, find?_foldl_insert] at hx
    split at hx
    · cases hx; exact Layer.Tame.empty l
    · simp at hx
  · intro l p d hd; simp [Graph.reset, Graph.clear, dynLayer?] at hd
  · exact ⟨fun k h => by simp [Graph.reset, Graph.clear, EdgeContainer.reset, OMap.contains] at h, fun _ k e he => by simp [Graph.reset, Graph.clear, EdgeContainer.reset] at he⟩
  · exact ⟨fun k h => by simp [Graph.reset, Graph.clear, EdgeContainer.reset, OMap.contains] at h, fun _ k e he => by simp [Graph.reset, Graph.clear, EdgeContainer.reset] at he⟩

end Tame
end Graph
end Verif
