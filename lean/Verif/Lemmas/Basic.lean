import Verif.Lemmas.Through2
import Verif.Lemmas.Mem8
/-!
# What a call that throws leaves behind: the invariants of memory safety (first part)

A call that throws half-way leaves the graph in a state in which no pointer is null or dangling.
-/

namespace Verif
open Res (Sat Keeps)

namespace Act
variable {S T α β : Type} {P : S → Prop}

/-- If the statements throw, the state they leave behind satisfies `P`. -/
def Thrown (P : S → Prop) (m : Act S α) (s : S) : Prop := ∀ e s', m s = .throw e s' → P s'

theorem Calm.thrown {m : Act S α} {s : S} (h : m.Calm s) : m.Thrown P s := fun e s' he => (h e s' he).elim
theorem Strong.thrown {m : Act S α} {s : S} (h : m.Strong s) (hs : P s) : m.Thrown P s := fun e s' he => h e s' he ▸ hs
theorem thrown_pure (a : α) (s : S) : (pure a : Act S α).Thrown P s := (calm_pure a s).thrown
theorem Thrown.bind {m : Act S α} {f : α → Act S β} {s : S} (h : m.Thrown P s) (h' : ∀ a s', m s = .ok a s' → (f a).Thrown P s') :
    (m >>= f).Thrown P s := by
  intro e s' he
  simp only [Bind.bind, Act.bind] at he
  cases hm : m s with
  | ok a s1 => rw [hm] at he; exact h' a s1 hm e s' he
  | throw e1 s1 => rw [hm] at he; cases he; exact h _ _ hm
  | ub => rw [hm] at he; cases he
theorem Thrown.ofGet {k : S → Act S β} {s : S} (h : (k s).Thrown P s) : (Act.get >>= k).Thrown P s :=
  Thrown.bind (calm_get s).thrown (fun a s' e => by cases e; exact h)
theorem Thrown.ofRead {f : S → Res α} {k : α → Act S β} {s : S} (hs : P s) (h : ∀ a, f s = .ok a → (k a).Thrown P s) : (Act.read f >>= k).Thrown P s :=
  Thrown.bind ((strong_read f s).thrown hs) (fun a s' e => by obtain ⟨rfl, e⟩ := read_ok e; exact h a e)
theorem Thrown.within {part : S → Res T} {put : S → T → S} {m : Act T α} {s : S} (hs : P s)
    (h : ∀ t, part s = .ok t → m.Thrown (fun t' => P (put s t')) t) : (Act.within part put m).Thrown P s := by
  intro e s' he
  unfold Act.within at he
  cases hq : part s with
  | ok t =>
    rw [hq] at he
    simp only at he
    cases hm : m t with
    | ok a t' => rw [hm] at he; cases he
    | throw e' t' => rw [hm] at he; cases he; exact h t hq _ _ hm
    | ub => rw [hm] at he; cases he
  | throw e' => rw [hq] at he; cases he; exact hs
  | ub => rw [hq] at he; cases he
/-- A loop: the iteration that throws starts where the iterations before it ended. -/
theorem Thrown.each {f : β → Act S Unit} {L : List β} {s : S}
    (h : ∀ pre x post s', L = pre ++ x :: post → foldRes (fun s x => (f x).res s >>= fun r => .ok r.1) s pre = .ok s' → (f x).Thrown P s') :
    (Act.each f L).Thrown P s := by
  induction L generalizing s with
  | nil => exact thrown_pure _ _
  | cons x L ih =>
    refine Thrown.bind (h [] x L s rfl rfl) (fun a s1 e => ih (fun pre y post s' hL hs' => ?_))
    refine h (x :: pre) y post s' (by rw [hL]; rfl) ?_
    simp only [foldRes, res, e, Thru.res, Res.bind_ok]
    exact hs'
theorem Thrown.eachInv {f : β → Act S Unit} {L : List β} {s : S} (hs : P s) (h : ∀ x s, P s → (f x).Thrown P s)
    (h' : ∀ x s, P s → Keeps (fun r => P r.1) ((f x).res s)) : (Act.each f L).Thrown P s := by
  refine Thrown.each (fun pre x post s' _ e => h x s' ?_)
  exact (Keeps.fold (P := P) (fun s x hs => Keeps.bind (h' x s hs) (fun r hr => Keeps.ok hr)) pre hs).get _ e
end Act

namespace Res
variable {α β : Type}
/-- The call does not throw. -/
def NoThrow (r : Res α) : Prop := ∀ e, r ≠ .throw e
theorem NoThrow.ok {a : α} : NoThrow (Res.ok a) := fun e h => by cases h
theorem NoThrow.pure {a : α} : NoThrow (Pure.pure a : Res α) := NoThrow.ok
theorem NoThrow.deref (o : Option α) : NoThrow (Res.deref o) := fun e => deref_ne_throw o e
theorem NoThrow.bind {r : Res α} {f : α → Res β} (h : NoThrow r) (h' : ∀ a, r = .ok a → NoThrow (f a)) : NoThrow (r >>= f) := by
  intro e he
  cases r with
  | ok a => exact h' a rfl e he
  | throw x => exact h x rfl
  | ub => cases he
theorem NoThrow.fold {γ : Type} {P : α → Prop} {f : α → γ → Res α} (hf : ∀ s x, P s → NoThrow (f s x)) (hP : ∀ s x, P s → Keeps P (f s x)) (L : List γ)
    {s : α} (hs : P s) : NoThrow (foldRes f s L) := by
  induction L generalizing s with
  | nil => exact NoThrow.ok
  | cons x L ih => exact NoThrow.bind (hf s x hs) (fun a e => ih ((hP s x hs).get a e))
end Res
open Res (NoThrow)

theorem Act.calm_of {S α : Type} {m : Act S α} {s : S} {r : Res (S × α)} (e : m.res s = r) (h : NoThrow r) : m.Calm s :=
  Act.calm_iff.2 (fun x => by rw [e]; exact h x)

namespace Layer
variable {F : Prop} {l : Layer}
theorem modNode_nt (l : Layer) (n : NodeId) (f : Node → Node) : NoThrow (l.modNode n f) := by
  unfold modNode; split
  · intro e h; cases h
  · exact NoThrow.ok
theorem modNode_edges {l' : Layer} {n : NodeId} {f : Node → Node} (h : l.modNode n f = .ok l') : l'.edges = l.edges := by
  unfold modNode at h; split at h <;> cases h; rfl
theorem removeEdge_nt (h : l.Tame F) (s t : NodeId) : NoThrow (l.removeEdge s t) := by
  unfold removeEdge
  split
  · exact NoThrow.ok
  rename_i hc
  refine NoThrow.bind (modNode_nt _ _ _) (fun l1 e1 => NoThrow.bind (modNode_nt _ _ _) (fun l2 e2 => ?_))
  rw [modNode_edges e2, modNode_edges e1]
  obtain ⟨c, hr⟩ := h.full.remove_ok (s := s) (t := t) (by simpa [hasEdge] using hc)
  rw [hr]
  exact NoThrow.ok
theorem removeNode_nt (h : l.Tame F) (n : NodeId) : NoThrow (l.removeNode n) := by
  unfold removeNode
  split
  · exact NoThrow.ok
  refine NoThrow.bind (NoThrow.fold (P := Layer.Tame F) (fun l t hl => ?_) (fun l t hl => ?_) _ h) (fun _ _ => NoThrow.pure)
  · exact NoThrow.bind (removeEdge_nt hl n t) (fun _ _ => NoThrow.ok)
  · exact Keeps.bind (hl.removeEdge n t) (fun _ h => Keeps.ok h)
theorem rewire_nt (h : l.Tame F) {s t : NodeId} (hc : l.hasEdge s t = true) (s' t' : NodeId) : NoThrow (l.edges.rewire s t s' t') := by
  unfold EdgeContainer.rewire
  dsimp only
  obtain ⟨z, h1, -⟩ := h.full.stated _ hc
  cases hq : (l.edges.findKey (EdgeKey.of s t)).2 with
  | none => exact NoThrow.pure
  | some e =>
    have hst : (l.edges.findKey (EdgeKey.of s t)).1.status.find? (EdgeKey.of s t) = some z := by
      rw [← h1]; unfold EdgeContainer.findKey; split <;> rfl
    refine NoThrow.bind (NoThrow.deref _) (fun a _ => ?_)
    simp only [hst, Res.at?_some, Res.bind_ok]
    refine NoThrow.bind ?_ (fun _ _ => NoThrow.pure)
    simp only [EdgeContainer.remove, OMap.find?_insert_self, Res.at?_some, Res.bind_ok]
    exact NoThrow.pure
theorem rewireEdge_nt (h : l.Tame F) (s t s' t' : NodeId) : NoThrow (l.rewireEdge s t s' t') := by
  unfold rewireEdge
  split
  · exact NoThrow.ok
  rename_i hc
  split
  · exact NoThrow.ok
  split
  · exact NoThrow.ok
  split
  · exact NoThrow.bind (removeEdge_nt h s t) (fun _ _ => NoThrow.pure)
  refine NoThrow.bind (rewire_nt h (by simpa using hc) s' t') (fun c _ => ?_)
  refine NoThrow.bind (modNode_nt _ _ _) (fun _ _ => NoThrow.bind (modNode_nt _ _ _) (fun _ _ => NoThrow.bind (modNode_nt _ _ _) (fun _ _ =>
    NoThrow.bind (modNode_nt _ _ _) (fun _ _ => NoThrow.pure))))
theorem mergeNodes_nt (h : l.Tame F) (f t : NodeId) : NoThrow (l.mergeNodes f t) := by
  unfold mergeNodes
  split
  · exact NoThrow.ok
  split
  · exact NoThrow.ok
  split
  · exact NoThrow.ok
  refine NoThrow.bind (NoThrow.fold (P := Layer.Tame F) (fun l u hl => ?_) (fun l u hl => ?_) _ h) (fun _ _ => NoThrow.pure)
  · exact NoThrow.bind (rewireEdge_nt hl _ _ _ _) (fun _ _ => NoThrow.ok)
  · exact Keeps.bind (hl.rewireEdge ..) (fun _ h => Keeps.ok h)
end Layer

namespace DynLayer
variable {A F : Prop} {N : Nat} {d : DynLayer}
theorem modIdx_nt (d : DynLayer) (i : Nat) (f : Node → Node) : NoThrow (d.modIdx i f) := by
  intro e he
  have h := Act.calm_iff.1 (calm_modIdxT i f d) e
  rw [res_modIdxT, he] at h
  exact h rfl
theorem modIdx_same {d' : DynLayer} {i : Nat} {f : Node → Node} (h : d.modIdx i f = .ok d') : d'.edges = d.edges ∧ d'.nodes.length = d.nodes.length := by
  unfold modIdx at h
  obtain ⟨p, -, h⟩ := bind_eq_ok h
  obtain ⟨x, -, h⟩ := bind_eq_ok h
  cases h
  exact ⟨rfl, by simp⟩
theorem removeEdge_nt (h : d.Tame A N F) (s t : NodeId) : NoThrow (d.removeEdge s t) := by
  unfold removeEdge
  split
  · exact NoThrow.ok
  rename_i hc
  refine NoThrow.bind (modIdx_nt _ _ _) (fun l1 e1 => NoThrow.bind (modIdx_nt _ _ _) (fun l2 e2 => ?_))
  rw [(modIdx_same e2).1, (modIdx_same e1).1]
  obtain ⟨c, hr⟩ := h.full.remove_ok (s := s) (t := t) (by simpa [hasEdge] using hc)
  rw [hr]
  exact NoThrow.ok
theorem removeEdge_length {s t : NodeId} {r : DynLayer × Bool} (e : d.removeEdge s t = .ok r) : r.1.nodes.length = d.nodes.length := by
  unfold removeEdge at e
  split at e
  · cases e; rfl
  obtain ⟨d1, e1, e⟩ := bind_eq_ok e
  obtain ⟨d2, e2, e⟩ := bind_eq_ok e
  obtain ⟨c, -, e⟩ := bind_eq_ok e
  cases e
  exact (modIdx_same e2).2.trans (modIdx_same e1).2
theorem insertEdge_length {s t : NodeId} {i : Option EdgeAttrs} {r : DynLayer × Bool} (e : d.insertEdge s t i = .ok r) :
    r.1.nodes.length = d.nodes.length := by
  unfold insertEdge at e
  split at e
  · cases e; rfl
  split at e
  · cases e; rfl
  split at e
  · cases e; rfl
  obtain ⟨d1, e1, e⟩ := bind_eq_ok e
  obtain ⟨d2, e2, e⟩ := bind_eq_ok e
  cases e
  exact (modIdx_same e2).2.trans (modIdx_same e1).2

theorem removeSlotT_calm (h : d.Tame A N F) {n : NodeId} {i : Nat} (hi : i < d.nodes.length) (sib : List NodeId) : (removeSlotT n i sib).Calm d := by
  refine Act.calm_of (res_removeSlotT n i sib d) ?_
  have hk : ∀ (d1 : DynLayer) t, (d1.Tame A N F ∧ d1.nodes.length = d.nodes.length) →
      Keeps (fun d1 : DynLayer => d1.Tame A N F ∧ d1.nodes.length = d.nodes.length) (d1.removeEdge n t >>= fun r => .ok r.1) := by
    rintro d1 t ⟨h1, h2⟩
    refine Keeps.bind (P := fun r => r.1.Tame A N F ∧ r.1.nodes.length = d.nodes.length) ⟨fun r e => ?_⟩ (fun r h => Keeps.ok h)
    exact ⟨(h1.removeEdge n t).get r e, (removeEdge_length e).trans h2⟩
  refine NoThrow.bind (NoThrow.fold (P := fun d1 : DynLayer => d1.Tame A N F ∧ d1.nodes.length = d.nodes.length) (fun d1 t h1 => ?_) hk _ ⟨h, rfl⟩)
    (fun d1 e => ?_)
  · exact NoThrow.bind (removeEdge_nt h1.1 n t) (fun _ _ => NoThrow.ok)
  have h1 := (Keeps.fold hk sib ⟨h, rfl⟩).get d1 e
  have hi1 : i < d1.nodes.length := by rw [h1.2]; exact hi
  simp only [List.getElem?_eq_getElem hi1, Res.at?_some, Res.bind_ok]
  exact NoThrow.bind (NoThrow.deref _) (fun _ _ => NoThrow.bind (NoThrow.deref _) (fun _ _ => NoThrow.pure))

theorem removeNodeT_strong (h : d.Tame A N F) (n : NodeId) : (removeNodeT n).Strong d := by
  unfold removeNodeT
  refine Act.Strong.ofGet ?_
  split
  · exact (Act.calm_pure _ _).strong
  refine Act.Strong.ofRead (fun p hp => Act.Strong.ofRead (fun x hx => ?_))
  have hi : d.pre.index n < d.nodes.length := by
    cases hq : d.nodes[d.pre.index n]? with
    | none => rw [hq] at hp; cases hp
    | some y => exact (List.getElem?_eq_some_iff.1 hq).1
  split
  · refine Act.Calm.strong (Act.Calm.bind (calm_insertEdgeT _ _ _ _) (fun a d1 e => ?_))
    have he := Graph.of_res e
    rw [res_insertEdgeT] at he
    exact removeSlotT_calm ((h.insertEdge ..).get _ he) (by rw [insertEdge_length he]; exact hi) _
  · exact (removeSlotT_calm h hi _).strong
end DynLayer

end Verif
