import Verif.Lemmas.Mem3
import Verif.Lemmas.Codec
import Verif.Refine.Run
import Verif.Refine.SpecFacts
import Verif.Model.GraphIO
/-! # Memory safety of the graph readers -/

namespace Verif
open Res (Sat)

/-! ## Graphs reached by the API satisfy the memory-safety invariant -/

namespace Spec
/-- The indices used by the dynamic layers fit in 32 bits. -/
def Tops (σ : Spec) : Prop := ∀ l p, (σ.dynInfo l p).top ≤ 2 ^ 32

theorem tops_of_dyn {σ σ' : Spec} (h : σ.Tops) (e : σ'.dyn = σ.dyn) : σ'.Tops := by
  intro l p
  have := h l p
  unfold dynInfo at this ⊢
  rw [e]; exact this

theorem tops_insert {σ σ' : Spec} (h : σ.Tops) {l : LayerId} {p : Prefix} {d : DynInfo} (hd : d.top ≤ 2 ^ 32)
    (e : σ'.dyn = σ.dyn.insert (l, p) d) : σ'.Tops := by
  intro l' p'
  have := h l' p'
  unfold dynInfo at this ⊢
  rw [e, OMap.find?_insert]
  by_cases c : (l, p) = (l', p')
  · simp [c, hd]
  · simp only [c, if_false]; exact this

theorem tops_empty {σ : Spec} (h : σ.dyn = ∅) : σ.Tops := by
  intro l p
  simp [dynInfo, h]

theorem dyn_emplaceNode (σ : Spec) (l : LayerId) (n : NodeId) (st : Option Stamp) (a : NodeAttrs) : (σ.emplaceNode l n st a).1.dyn = σ.dyn := by
  unfold emplaceNode; split
  · rfl
  · split <;> rfl
theorem dyn_setNodeAttrs (σ : Spec) (n : NodeId) (a : NodeAttrs) : (σ.setNodeAttrs n a).1.dyn = σ.dyn := by
  unfold setNodeAttrs; split <;> rfl
theorem dyn_insertEdge (σ : Spec) (s t : NodeId) (a : Option EdgeAttrs) : (σ.insertEdge s t a).1.dyn = σ.dyn := by
  unfold insertEdge; split
  · rfl
  · split
    · rfl
    · split <;> rfl
theorem dyn_insertParentEdge (σ : Spec) (s t : NodeId) (a : Option EdgeAttrs) : (σ.insertParentEdge s t a).1.dyn = σ.dyn := by
  unfold insertParentEdge; split
  · split <;> rfl
  · rfl
theorem dyn_touch (σ : Spec) (k : EdgeKey) : (σ.touch k).dyn = σ.dyn := by
  unfold touch; split <;> rfl
theorem dyn_setEdgeAttrs (σ : Spec) (s t : NodeId) (a : EdgeAttrs) : (σ.setEdgeAttrs s t a).1.dyn = σ.dyn := by
  unfold setEdgeAttrs; split
  · rfl
  · exact dyn_touch _ _
theorem dyn_addOrUpdateEdge (σ : Spec) (s t : NodeId) (a : Option EdgeAttrs) : (σ.addOrUpdateEdge s t a).1.dyn = σ.dyn := by
  unfold addOrUpdateEdge; split
  · exact dyn_setEdgeAttrs ..
  · exact dyn_insertEdge ..
theorem dyn_removeEdge (σ : Spec) (s t : NodeId) : (σ.removeEdge s t).1.dyn = σ.dyn := by
  unfold removeEdge; split <;> rfl
theorem dyn_bridge (σ : Spec) (n : NodeId) : (σ.bridge n).dyn = σ.dyn := by
  unfold bridge; split
  · split <;> rfl
  · rfl
theorem dyn_removeNode (σ : Spec) (n : NodeId) : (σ.removeNode n).1.dyn = σ.dyn := by
  unfold removeNode; split
  · exact dyn_bridge _ _
  · rfl
theorem dyn_mergeNodes (σ : Spec) (s t : NodeId) : (σ.mergeNodes s t).1.dyn = σ.dyn := by
  unfold mergeNodes; split
  · rfl
  · split
    · split <;> rfl
    · rfl

theorem tops_emplacePrev {σ : Spec} (h : σ.Tops) {l : LayerId} {n : NodeId} {t : Stamp} (a : NodeAttrs) (hp : σ.prevOk l n t = true) :
    (σ.emplacePrev l n t a).1.Tops := by
  unfold emplacePrev
  split
  · exact h
  · refine tops_insert h (l := l) (p := Prefix.fromId n) (d := _) ?_ rfl
    have h1 := h l (Prefix.fromId n)
    simp only [prevOk, Bool.and_eq_true, decide_eq_true_eq] at hp
    have h2 := hp.2
    show max _ _ ≤ _
    omega

theorem tops_step {σ : Spec} (h : σ.Tops) {op : Op} (ho : op.ok σ = true) : (σ.step op).1.Tops := by
  cases op with
  | clear => exact tops_empty rfl
  | reset ids => exact tops_empty rfl
  | createDyn l p =>
    show (σ.createDyn l p).1.Tops
    unfold createDyn
    split
    · exact h
    · exact tops_insert h (l := l) (p := p) (d := {}) (by decide) rfl
  | emplaceNode l n a => exact tops_of_dyn h (dyn_emplaceNode ..)
  | insertNode l n st a => exact tops_of_dyn h (dyn_emplaceNode ..)
  | emplaceDyn l p t a link =>
    show (σ.emplaceDyn l p t a link).1.Tops
    simp only [Op.ok, Bool.and_eq_true, decide_eq_true_eq] at ho
    have hd : (σ.dynInfo l p).top + 1 ≤ 2 ^ 32 := by omega
    unfold emplaceDyn
    dsimp only
    split
    · exact h
    · split
      · exact h
      · split <;> exact tops_insert h (l := l) (p := p) (d := ⟨(σ.dynInfo l p).next + 1, (σ.dynInfo l p).top + 1⟩) hd rfl
  | emplacePrev l n t a => exact tops_emplacePrev h a ho
  | addOrUpdateNode l n a st =>
    show (σ.addOrUpdateNode l n a st).1.Tops
    unfold addOrUpdateNode
    split
    · exact h
    · rename_i h1
      split
      · exact tops_of_dyn h (dyn_setNodeAttrs ..)
      · rename_i h2
        cases st with
        | none => exact tops_of_dyn h (dyn_emplaceNode ..)
        | some t =>
          simp only [Op.ok, h1, h2, Bool.or_eq_true, Bool.false_eq_true, false_or] at ho
          exact tops_emplacePrev h a (by simpa [h1, h2] using ho)
  | setNodeAttrs n a => exact tops_of_dyn h (dyn_setNodeAttrs ..)
  | insertEdge s t a => exact tops_of_dyn h (dyn_insertEdge ..)
  | insertParentEdge s t a => exact tops_of_dyn h (dyn_insertParentEdge ..)
  | addOrUpdateEdge s t a => exact tops_of_dyn h (dyn_addOrUpdateEdge ..)
  | setEdgeAttrs s t a => exact tops_of_dyn h (dyn_setEdgeAttrs ..)
  | findEdge s t => exact tops_of_dyn h (dyn_touch ..)
  | removeNode n => exact tops_of_dyn h (dyn_removeNode ..)
  | removeEdge s t => exact tops_of_dyn h (dyn_removeEdge ..)
  | mergeNodes f t => exact tops_of_dyn h (dyn_mergeNodes ..)
  | setMesh m => exact tops_of_dyn h rfl
  | markStale => exact tops_of_dyn h rfl
  | sweep => exact tops_of_dyn h rfl
  | newNodes c => exact h
  | removedNodes c => exact h
  | newEdges c => exact h
  | removedEdges c => exact h

theorem tops_after {σ : Spec} (h : σ.Tops) {ops : List Op} (ho : Op.okAll σ ops = true) : (σ.after ops).Tops := by
  induction ops generalizing σ with
  | nil => exact h
  | cons op ops ih =>
    simp only [Op.okAll, Bool.and_eq_true] at ho
    exact ih (tops_step h ho.1) ho.2
end Spec

theorem Spec.nodeRec_eq_some {σ : Spec} {k : LayerKey} {n : NodeId} {x : Node} (h : σ.nodeRec k n = some x) :
    ∃ i, σ.nodes.find? n = some i ∧ i.key = k ∧ x = σ.mkNode n i := by
  simp only [Spec.nodeRec, Option.bind_eq_some_iff] at h
  obtain ⟨i, h1, h2⟩ := h
  split at h2
  · rename_i e; cases h2; exact ⟨i, h1, e, rfl⟩
  · cases h2
theorem Spec.nodeRec_of {σ : Spec} {n : NodeId} {i : NodeInfo} (h : σ.nodes.find? n = some i) : σ.nodeRec i.key n = some (σ.mkNode n i) := by
  simp [Spec.nodeRec, h]

theorem R.mv {g : Graph} {σ : Spec} (h : R g σ) (hw : SWF σ) (ht : σ.Tops) : MV g.view where
  key n k := by
    rw [h.lookup, h.node]
    constructor
    · intro e
      obtain ⟨i, hi, rfl⟩ := Option.map_eq_some_iff.1 e
      simp [Spec.nodeRec_of hi]
    · intro e
      obtain ⟨x, hx⟩ := Option.isSome_iff_exists.1 e
      obtain ⟨i, hi, rfl, _⟩ := Spec.nodeRec_eq_some hx
      simp [Spec.key?, hi]
  live := h.live
  info l p m hm := by
    have := h.info _ _ hm
    simp only [infoOk] at this
    obtain ⟨_, h2, _, h4, _⟩ := this
    exact ⟨h2, h4 ▸ ht l p⟩
  stamp l p n x hx := by
    rw [h.node] at hx
    obtain ⟨i, hi, hk, rfl⟩ := Spec.nodeRec_eq_some hx
    exact (hw.dyn n i l p hi hk).2.2
  edge k a b hc := by
    simp only [EdgeContainer.contains, OMap.contains, (h.ec (.within k)).edges] at hc
    obtain ⟨e, he⟩ := Option.isSome_iff_exists.1 hc
    simp only [Spec.edgeRec, Option.bind_eq_some_iff] at he
    obtain ⟨e0, h1, h2⟩ := he
    have hE : σ.hasEdge a b = true := OMap.contains_eq_true.2 ⟨_, h1⟩
    obtain ⟨hne, ha, hb⟩ := hw.hasEdge_nodes hE
    obtain ⟨i, ha⟩ := OMap.contains_eq_true.1 ha
    obtain ⟨j, hb⟩ := OMap.contains_eq_true.1 hb
    split at h2
    · rename_i hp
      have hkey : i.key = k ∧ j.key = k := by
        rw [Spec.placeOf_of (Spec.key?_eq ha) (Spec.key?_eq hb)] at hp
        simp only [place, Option.some.injEq] at hp
        split at hp
        · rename_i e; cases hp; exact ⟨rfl, e.symm⟩
        · cases hp
      refine ⟨hne, σ.mkNode a i, σ.mkNode b j, ?_, ?_, ?_, ?_⟩
      · rw [h.node, ← hkey.1]; exact Spec.nodeRec_of ha
      · rw [h.node, ← hkey.2]; exact Spec.nodeRec_of hb
      · simp only [Spec.mkNode, Spec.siblings, Spec.contains_nbrs, Spec.key?_eq hb, hE, hkey.1, hkey.2]; simp
      · have hE' : σ.hasEdge b a = true := by simpa only [Spec.hasEdge, EdgeKey.of_comm] using hE
        simp only [Spec.mkNode, Spec.siblings, Spec.contains_nbrs, Spec.key?_eq ha, hE', hkey.1, hkey.2]; simp
    · cases h2
  child k n x t hx hc := by
    rw [h.node] at hx
    obtain ⟨i, hi, rfl, rfl⟩ := Spec.nodeRec_eq_some hx
    simp only [Spec.mkNode, Spec.children, Spec.contains_nbrs, Bool.and_eq_true, Option.any_eq_true] at hc
    obtain ⟨⟨k', hk, hl⟩, hE⟩ := hc
    obtain ⟨j, hj, rfl⟩ := Option.map_eq_some_iff.1 hk
    refine ⟨j.key, σ.mkNode t j, by rw [h.node]; exact Spec.nodeRec_of hj, ?_, of_decide_eq_true hl⟩
    have hE' : σ.hasEdge t n = true := by simpa only [Spec.hasEdge, EdgeKey.of_comm] using hE
    simp only [Spec.mkNode, Spec.parents, Spec.contains_nbrs, Spec.key?_eq hi, hE', Option.any_some, hl]; rfl
  par k n x t hx hc := by
    rw [h.node] at hx
    obtain ⟨i, hi, rfl, rfl⟩ := Spec.nodeRec_eq_some hx
    simp only [Spec.mkNode, Spec.parents, Spec.contains_nbrs, Bool.and_eq_true, Option.any_eq_true] at hc
    obtain ⟨⟨k', hk, hl⟩, hE⟩ := hc
    obtain ⟨j, hj, rfl⟩ := Option.map_eq_some_iff.1 hk
    refine ⟨j.key, σ.mkNode t j, by rw [h.node]; exact Spec.nodeRec_of hj, ?_, of_decide_eq_true hl⟩
    have hE' : σ.hasEdge t n = true := by simpa only [Spec.hasEdge, EdgeKey.of_comm] using hE
    simp only [Spec.mkNode, Spec.children, Spec.contains_nbrs, Spec.key?_eq hi, hE', Option.any_some, hl]; rfl

/-! ## Readers that carry an invariant -/

namespace Rd
variable {α β : Type} {E : Env} {P : α → Prop} {Q : β → Prop}

/-- As `Inside`, and the value satisfies `P`. -/
def InsideP (E : Env) (q : Nat) (P : α → Prop) : Res (α × Nat) → Prop
  | .ok (a, p') => q ≤ p' ∧ p' ≤ E.buf.length ∧ P a
  | .throw _ => True
  | .ub => False

/-- As `Safe`, and the value satisfies `P`. -/
def SafeP (E : Env) (d : Nat) (P : α → Prop) (r : Rd α) : Prop :=
  ∀ p, p ≤ E.buf.length → InsideP E (p + d) P (r E p)

theorem Safe.top {d : Nat} {r : Rd α} (h : Safe E d r) : SafeP E d (fun _ => True) r := by
  intro p hp
  have := h p hp
  cases e : r E p with
  | ok x => rw [e] at this; exact ⟨this.1, this.2, trivial⟩
  | throw x => trivial
  | ub => rw [e] at this; exact this

theorem SafeP.safe {d : Nat} {r : Rd α} (h : SafeP E d P r) : Safe E d r := by
  intro p hp
  have := h p hp
  cases e : r E p with
  | ok x => rw [e] at this; exact ⟨this.1, this.2.1⟩
  | throw x => trivial
  | ub => rw [e] at this; exact this

theorem SafeP.mono {d d' : Nat} {r : Rd α} (h : SafeP E d P r) (hd : d' ≤ d) : SafeP E d' P r := by
  intro p hp
  have := h p hp
  cases e : r E p with
  | ok x => rw [e] at this; exact ⟨by have := this.1; omega, this.2⟩
  | throw x => trivial
  | ub => rw [e] at this; exact this

theorem SafeP.pure {a : α} (h : P a) : SafeP E 0 P (Pure.pure a : Rd α) := fun _ hp => ⟨Nat.le_refl _, hp, h⟩

theorem SafeP.bind {d d' : Nat} {r : Rd α} {k : α → Rd β} (h : SafeP E d P r) (h' : ∀ a, P a → SafeP E d' Q (k a)) :
    SafeP E (d + d') Q (r >>= k) := by
  intro p hp
  have := h p hp
  rw [bind_apply]
  cases e : r E p with
  | ok x =>
    rw [e] at this
    have h2 := h' x.1 this.2.2 x.2 this.2.1
    show InsideP E _ Q (k x.1 E x.2)
    cases e2 : k x.1 E x.2 with
    | ok y => rw [e2] at h2; exact ⟨by have := this.1; have := h2.1; omega, h2.2⟩
    | throw x => trivial
    | ub => rw [e2] at h2; exact h2
  | throw x => trivial
  | ub => rw [e] at this; exact this

theorem SafeP.bind0 {d d' : Nat} {r : Rd α} {k : α → Rd β} (h : SafeP E d P r) (h' : ∀ a, P a → SafeP E d' Q (k a)) : SafeP E d Q (r >>= k) :=
  (h.bind h').mono (Nat.le_add_right _ _)

theorem Safe.bindP {d d' : Nat} {r : Rd α} {k : α → Rd β} (h : Safe E d r) (h' : ∀ a, SafeP E d' Q (k a)) : SafeP E d Q (r >>= k) :=
  h.top.bind0 (fun a _ => h' a)

theorem SafeP.lift {r : Res α} (h : Sat P r) : SafeP E 0 P (Rd.lift r) := by
  intro p hp
  cases e : r with
  | ok a => rw [e] at h; exact ⟨Nat.le_refl _, hp, h⟩
  | throw x => trivial
  | ub => rw [e] at h; exact h

theorem SafeP.env {d : Nat} {k : Env → Rd β} (h : SafeP E d Q (k E)) : SafeP E d Q (Rd.env >>= k) := h

theorem SafeP.ite {c : Prop} [Decidable c] {d : Nat} {a b : Rd α} (h : c → SafeP E d P a) (h' : ¬ c → SafeP E d P b) :
    SafeP E d P (if c then a else b) := by
  split
  · exact h ‹_›
  · exact h' ‹_›

theorem Safe.dynStart : Safe E 1 dynStart := Safe.checkType _

theorem Safe.dynEnd : Safe E 0 dynEnd := by
  unfold Rd.dynEnd
  refine Safe.currType (fun t p hp => ?_)
  split
  · exact ⟨Nat.le_refl _, by omega⟩
  · exact ⟨by omega, by omega⟩

theorem Safe.checkIfTrue : Safe E 0 checkIfTrue := by
  intro p hp
  unfold Rd.checkIfTrue
  have h : Safe E 0 (do let t ← Rd.currType; Rd.checkType t; return t : Rd UInt8) :=
    Safe.currType' (fun t => ((Safe.checkType t).bind0 (d' := 0) (fun _ => Safe.pure t)).mono (by omega))
  have := h p hp
  revert this
  cases (do let t ← Rd.currType; Rd.checkType t; return t : Rd UInt8) E p with
  | ok x => exact fun h => h
  | throw x => exact fun _ => ⟨Nat.le_refl _, hp⟩
  | ub => exact fun h => h

theorem SafeP.dynLoop {body : α → Rd α} (hb : ∀ s, P s → SafeP E 1 P (body s)) (n : Nat) {s : α} (hs : P s) {p : Nat} (hp : p ≤ E.buf.length)
    (hn : E.buf.length < p + n) : InsideP E p P (dynLoop body n s E p) := by
  induction n generalizing s p with
  | zero => omega
  | succ n ih =>
    unfold Rd.dynLoop
    rw [bind_apply]
    have h1 := Safe.dynEnd (E := E) p hp
    cases e : Rd.dynEnd E p with
    | throw x => trivial
    | ub => rw [e] at h1; exact h1
    | ok x =>
      rw [e] at h1
      show InsideP E p P ((if x.1 = true then _ else _ : Rd α) E x.2)
      split
      · exact ⟨by have := h1.1; omega, h1.2, hs⟩
      · rw [bind_apply]
        have h2 := hb s hs x.2 h1.2
        cases e2 : body s E x.2 with
        | throw x => trivial
        | ub => rw [e2] at h2; exact h2
        | ok y =>
          rw [e2] at h2
          have h3 := ih h2.2.2 h2.2.1 (by have := h1.1; have := h2.1; omega)
          show InsideP E p P (Rd.dynLoop body n y.1 E y.2)
          cases e3 : Rd.dynLoop body n y.1 E y.2 with
          | throw x => trivial
          | ub => rw [e3] at h3; exact h3
          | ok z => rw [e3] at h3; exact ⟨by have := h1.1; have := h2.1; have := h3.1; omega, h3.2⟩

theorem SafeP.dynArr {body : α → Rd α} (hb : ∀ s, P s → SafeP E 1 P (body s)) {s : α} (hs : P s) : SafeP E 1 P (dynArr body s) := by
  unfold Rd.dynArr
  refine Safe.dynStart.bindP (d' := 0) (fun _ => SafeP.env (fun p hp => ?_))
  exact SafeP.dynLoop hb _ hs hp (by omega)

/-! ## The graph readers -/

theorem SafeP.parseNode (ho : E.isoOverflow = false) {fac : OMap UInt8 NodeClass} (hc : SafeClasses E fac) (s : Graph × OSet NodeId)
    (hs : MV s.1.view) : SafeP E 1 (fun s => MV s.1.view) (parseNode fac s) := by
  unfold Rd.parseNode
  refine SafeP.mono (d := 5) ?_ (by omega)
  refine (Safe.checkArrLen 4).bindP (d' := 9) (fun _ => ?_)
  refine Safe.u64.bindP (d' := 9) (fun l => Safe.u64.bindP (d' := 1) (fun n => ?_))
  refine (Safe.opt Safe.stamp (by omega)).bindP (d' := 2) (fun t => (Safe.nodeAttrs ho hc).bindP (d' := 0) (fun a => ?_))
  cases a with
  | none => exact SafeP.pure hs
  | some a => exact (SafeP.lift (Graph.addOrUpdateNode_sat hs l n (some a) t)).bind0 (d' := 0) (fun r hr => SafeP.pure hr)

theorem SafeP.parseEdge {fac : OMap UInt8 EdgeClass} (g : Graph) (hg : MV g.view) : SafeP E 1 (fun g => MV g.view) (parseEdge fac g) := by
  unfold Rd.parseEdge
  refine SafeP.mono (d := 5) ?_ (by omega)
  refine (Safe.checkArrLen 3).bindP (d' := 9) (fun _ => ?_)
  refine Safe.u64.bindP (d' := 9) (fun s => Safe.u64.bindP (d' := 2) (fun t => ?_))
  refine Safe.edgeAttrs.bindP (d' := 0) (fun a => ?_)
  exact (SafeP.lift (Graph.addOrUpdateEdge_sat hg s t a)).bind0 (d' := 0) (fun r hr => SafeP.pure hr)

/-- Where agents are not registered or Eigen's assertions are on. -/
def SafeRegistry (E : Env) (R : Registry NodeClass) : Prop := E.eigenChecks = true ∨ ∀ e ∈ R.entries, e.2 ≠ .agent

theorem factory_mem {γ : Type} {names : List Str} {R : Registry γ} {t : UInt8} {c : γ} (h : (factory names R).find? t = some c) :
    ∃ s, R.find? s = some c := by
  unfold factory at h
  revert h
  suffices ∀ (L : List (Str × Nat)) (m : OMap UInt8 γ), (∀ t c, m.find? t = some c → ∃ s, R.find? s = some c) →
      ∀ t c, (L.foldl (fun m e => match R.find? e.1 with
        | none => m
        | some c => m.insert (UInt8.ofNat e.2) c) m).find? t = some c → ∃ s, R.find? s = some c from
    fun h => this _ ∅ (fun t c h => by simp at h) t c h
  intro L
  induction L with
  | nil => intro m hm; exact hm
  | cons e L ih =>
    intro m hm
    refine ih _ (fun t c h => ?_)
    cases e2 : R.find? e.1 with
    | none => simp only [e2] at h; exact hm _ _ h
    | some d =>
      simp only [e2, OMap.find?_insert] at h
      split at h
      · cases h; exact ⟨_, e2⟩
      · exact hm _ _ h

theorem SafeRegistry.factory {R : Registry NodeClass} (h : SafeRegistry E R) (names : List Str) : SafeClasses E (factory names R) := by
  rcases h with h | h
  · exact .inl h
  · refine .inr (fun t ht => ?_)
    obtain ⟨s, hs⟩ := factory_mem ht
    unfold Registry.find? at hs
    obtain ⟨e, he, h2⟩ := Option.map_eq_some_iff.1 hs
    exact h e (List.mem_of_find?_eq_some he) h2

theorem SafeP.loadFactory {γ : Type} (R : Registry γ) : SafeP E 0 (fun f => ∃ names, f = factory names R) (loadFactory R) := by
  unfold Rd.loadFactory
  refine SafeP.env (SafeP.ite (fun _ => SafeP.pure ⟨_, rfl⟩) (fun _ => ?_))
  exact ((Safe.vec Safe.str).bindP (d' := 0) (fun n => SafeP.pure ⟨n, rfl⟩)).mono (by omega)

theorem Safe.meshLayer : Safe E 0 meshLayer := by
  unfold Rd.meshLayer
  exact Safe.env (Safe.ite (fun _ => (Safe.u64.map _).mono (by omega)) (fun _ => Safe.pure _))

theorem mv_setMesh {g : Graph} (h : MV g.view) (m : Option Mesh) : MV (g.setMesh m).view :=
  ⟨h.key, h.live, h.info, h.stamp, h.edge, h.child, h.par⟩

theorem SafeP.meshPart (g : Graph) (hg : MV g.view) : SafeP E 0 (fun g => MV g.view) (meshPart g) := by
  unfold Rd.meshPart
  refine Safe.checkIfTrue.bindP (d' := 0) (fun b => SafeP.ite (fun _ => ?_) (fun _ => SafeP.pure hg))
  exact Safe.mesh.bindP (d' := 0) (fun m => SafeP.pure (mv_setMesh hg (some m)))

theorem SafeP.updateGraph (ho : E.isoOverflow = false) {R : Registry NodeClass} (hR : SafeRegistry E R) (Q : Registry EdgeClass)
    (order : List NodeId → List NodeId) (g : Graph) (hg : MV g.view) : SafeP E 0 (fun g => MV g.view) (updateGraph R Q order g) := by
  unfold Rd.updateGraph
  refine Safe.meshLayer.bindP (d' := 0) (fun _ => ?_)
  refine (SafeP.loadFactory R).bind0 (d' := 0) (fun nf hnf => ?_)
  obtain ⟨names, rfl⟩ := hnf
  refine (SafeP.loadFactory Q).bind0 (d' := 0) (fun ef _ => ?_)
  have hb := SafeP.parseNode (E := E) ho (hR.factory names)
  refine ((SafeP.dynArr (P := fun s : Graph × OSet NodeId => MV s.1.view) hb hg).mono (Nat.zero_le 1)).bind0 (d' := 0) (fun s hs => ?_)
  refine ((SafeP.dynArr (P := fun s : Graph × OSet NodeId => MV s.1.view) hb hs).mono (Nat.zero_le 1)).bind0 (d' := 0) (fun s hs => ?_)
  refine (SafeP.lift (P := fun g : Graph => MV g.view) (Sat.fold (fun g n h => ?_) _ hs)).bind0 (d' := 0) (fun g hg => ?_)
  · exact Sat.bind (Graph.removeNode_sat h n) (fun r hr => hr)
  refine ((SafeP.dynArr (P := fun g : Graph => MV g.view) (fun g hg => SafeP.parseEdge g hg)
    (Graph.markEdgesAsStale_mv hg)).mono (Nat.zero_le 1)).bind0 (d' := 0) (fun g hg => ?_)
  refine (SafeP.lift (Graph.removeAllStaleEdges_sat hg)).bind0 (d' := 0) (fun g hg => ?_)
  exact SafeP.meshPart g hg

theorem SafeP.readGraph (ho : E.isoOverflow = false) {R : Registry NodeClass} (hR : SafeRegistry E R) (Q : Registry EdgeClass)
    (order : List NodeId → List NodeId) : SafeP E 5 (fun g => MV g.view) (readGraph R Q order) := by
  unfold Rd.readGraph
  refine (Safe.vec Safe.u64).bindP (d' := 0) (fun ids => ?_)
  refine (SafeP.lift (P := fun g : Graph => MV g.view) ?_).bind0 (d' := 0) (fun g hg => SafeP.updateGraph ho hR Q order g hg)
  by_cases he : ids = []
  · subst he; trivial
  · obtain ⟨g, h1, h2⟩ := Verif.R.create he
    rw [h1]
    exact Verif.R.mv h2 (SWF.empty _) (Spec.tops_empty rfl)

theorem mv_clear (g : Graph) : MV g.clear.view := by
  have hn : ∀ k n, g.clear.view.node k n = none := by
    intro k n
    simp only [Graph.view, Graph.layerAt?_clear]
    cases k with
    | static l => simp only []; split <;> rfl
    | dyn l p => rfl
  have hs : ∀ k n, g.clear.view.st k n = none := by
    intro k n
    simp only [Graph.view, Graph.layerAt?_clear]
    cases k with
    | static l => simp only []; split <;> rfl
    | dyn l p => rfl
  have he : ∀ k, g.clear.view.ec (.within k) = {} := by
    intro k
    simp only [Graph.view, Graph.ecAt?, Graph.layerAt?_clear]
    cases k with
    | static l => simp only []; split <;> rfl
    | dyn l p => rfl
  refine ⟨?_, ?_, ?_, ?_, ?_, ?_, ?_⟩
  · intro n k
    rw [hn]
    constructor
    · intro h; cases (show (none : Option LayerKey) = some k from h)
    · intro h; cases h
  · intro k n; rw [hn, hs]; rfl
  · intro l p m h; cases (show (none : Option Meta) = some m from h)
  · intro l p n x h; rw [hn] at h; cases h
  · intro k a b h; rw [he] at h; cases (show false = true from h)
  · intro k n x t h; rw [hn] at h; cases h
  · intro k n x t h; rw [hn] at h; cases h

theorem SafeP.updateGraphFrom (ho : E.isoOverflow = false) {R : Registry NodeClass} (hR : SafeRegistry E R) (Q : Registry EdgeClass)
    (order : List NodeId → List NodeId) {g : Graph} (hg : MV g.view) :
    SafeP E 5 (fun g => MV g.view) (updateGraphFrom R Q order g) := by
  unfold Rd.updateGraphFrom
  refine (Safe.vec Safe.u64).bindP (d' := 0) (fun ids => SafeP.updateGraph ho hR Q order _ ?_)
  split
  · exact mv_clear _
  · exact hg

theorem _root_.Verif.Reached.mv {ids : List LayerId} {ops : List Op} {g : Graph} (h : Reached ids ops g) : MV g.view := by
  obtain ⟨h1, h2⟩ := h.rep
  exact h1.mv h2 (Spec.tops_after (Spec.tops_empty rfl) h.ok)

end Rd
end Verif
