import Verif.Lemmas.Receive
/-! # Applying arbitrary messages in place: what is left behind -/

namespace Verif
open Res (Sat Keeps)

/-- The invariant without appends and merges: no trajectory is known to be without gaps, edges may lack attributes. -/
def Graph.Sound (g : Graph) : Prop := g.Inv (fun _ _ => False) 0 False

namespace Act
variable {S α β : Type} {m : Act S α} {k : α → Act S β} {s s' : S}
theorem bind_ok {a : α} (h : m s = .ok a s') : (m >>= k) s = k a s' := by
  show (match m s with | .ok a s => k a s | .throw e s => .throw e s | .ub => .ub) = _
  rw [h]
theorem bind_throw {e : Exc} (h : m s = .throw e s') : (m >>= k) s = .throw e s' := by
  show (match m s with | .ok a s => k a s | .throw e s => .throw e s | .ub => .ub) = _
  rw [h]
theorem bind_ub (h : m s = .ub) : (m >>= k) s = .ub := by
  show (match m s with | .ok a s => k a s | .throw e s => .throw e s | .ub => .ub) = _
  rw [h]
end Act

namespace Graph
variable {g : Graph}

theorem Inv.sound {A : LayerId → Prefix → Prop} {F : Prop} {N : Nat} (h : g.Inv A N F) : g.Sound :=
  ⟨h.mv, (h.tame.weaken (F' := False) False.elim).stat, fun l p d hd => ⟨(h.tame.dyn l p d hd).attrs, (h.tame.dyn l p d hd).full.weaken False.elim, False.elim⟩,
    h.tame.inter.weaken False.elim, h.tame.dynInter.weaken False.elim⟩

/-- Calls that are safe after arbitrary messages. -/
def _root_.Verif.Op.plainCall : Op → Bool
  | .emplaceDyn .. => false
  | .mergeNodes .. => false
  | _ => true

theorem Sound.call (h : g.Sound) {op : Op} (ho : op.plainCall = true) : (stepT op g).Leaves Sound := by
  refine (Inv.stepT h (by omega) op ?_ (fun _ _ _ _ _ h => h) (fun _ _ _ _ _ h => h) ?_).mono (fun g h => h.sound)
  · rintro l p t a k rfl; cases ho
  · rintro f t rfl; cases ho
theorem leaves_of_map {α β : Type} {P : Graph → Prop} {m : Act Graph α} {f : α → β} (h : ((m >>= fun a => (pure (f a) : Act Graph β)) g).Leaves P) : (m g).Leaves P := by
  cases e : m g with
  | ok a s => rw [Act.bind_ok e] at h; exact h
  | throw a s => rw [Act.bind_throw e] at h; exact h
  | ub => rw [Act.bind_ub e] at h; exact h
theorem Sound.addOrUpdateNodeT (h : g.Sound) (l : LayerId) (n : NodeId) (a : NodeAttrs) (t : Option Stamp) : (addOrUpdateNodeT l n (some a) t g).Leaves Sound :=
  leaves_of_map (f := Out.bool) (h.call (op := .addOrUpdateNode l n a t) rfl)
theorem Sound.addOrUpdateEdgeT (h : g.Sound) (s t : NodeId) (a : Option EdgeAttrs) : (addOrUpdateEdgeT s t a g).Leaves Sound :=
  leaves_of_map (f := Out.bool) (h.call (op := .addOrUpdateEdge s t a) rfl)
theorem Sound.removeNodeT (h : g.Sound) (n : NodeId) : (removeNodeT n g).Leaves Sound :=
  leaves_of_map (f := Out.bool) (h.call (op := .removeNode n) rfl)
theorem Sound.removeAllStaleEdgesT (h : g.Sound) : (removeAllStaleEdgesT g).Leaves Sound :=
  leaves_of_map (f := fun _ => Out.unit) (h.call (op := .sweep) rfl)
theorem Sound.markEdgesAsStale (h : g.Sound) : g.markEdgesAsStale.Sound := h.call (op := .markStale) rfl
theorem Sound.setMesh (h : g.Sound) (m : Option Mesh) : (g.setMesh m).Sound := h.call (op := .setMesh m) rfl
theorem Sound.reset (h : g.Sound) (ids : List LayerId) : (g.reset ids).Sound := h.call (op := .reset ids) rfl
end Graph

namespace Upd
variable {α β : Type} {E : Env}

/-- As `Inside`, for a reader that writes to a graph. -/
def InsideT (E : Env) (q : Nat) (P : α → Prop) : Thru Graph (α × Nat) → Prop
  | .ok x g => (q ≤ x.2 ∧ x.2 ≤ E.buf.length ∧ P x.1) ∧ g.Sound
  | .throw _ g => g.Sound
  | .ub => False

theorem InsideT.mono {q q' : Nat} {P : α → Prop} {t : Thru Graph (α × Nat)} (h : InsideT E q P t) (hq : q' ≤ q) : InsideT E q' P t := by
  cases t with
  | ok x g => exact ⟨⟨by have := h.1.1; omega, h.1.2⟩, h.2⟩
  | throw e g => exact h
  | ub => exact h

/-- From every position in the buffer and every sound graph: the graph stays sound, the position goes at least `d` further. -/
def SafeU (E : Env) (d : Nat) (P : α → Prop) (m : Upd α) : Prop := ∀ p, p ≤ E.buf.length → ∀ g : Graph, g.Sound → InsideT E (p + d) P (m E p g)

theorem SafeU.mono {d d' : Nat} {P : α → Prop} {m : Upd α} (h : SafeU E d P m) (hd : d' ≤ d) : SafeU E d' P m :=
  fun p hp g hg => (h p hp g hg).mono (by omega)

theorem SafeU.bind {d d' : Nat} {P : α → Prop} {Q : β → Prop} {m : Upd α} {k : α → Upd β} (h : SafeU E d P m) (h' : ∀ a, P a → SafeU E d' Q (k a)) : SafeU E (d + d') Q (m >>= k) := by
  intro p hp g hg
  have h1 := h p hp g hg
  show InsideT E _ Q ((m E p >>= fun x => k x.1 E x.2 : Act Graph _) g)
  cases e : m E p g with
  | ok x g' =>
    rw [e] at h1
    rw [Act.bind_ok e]
    exact (h' x.1 h1.1.2.2 x.2 h1.1.2.1 g' h1.2).mono (by have := h1.1.1; omega)
  | throw x g' => rw [e] at h1; rw [Act.bind_throw e]; exact h1
  | ub => rw [e] at h1; exact h1.elim
theorem SafeU.bind0 {d : Nat} {P : α → Prop} {Q : β → Prop} {m : Upd α} {k : α → Upd β} (h : SafeU E d P m) (h' : ∀ a, P a → SafeU E 0 Q (k a)) : SafeU E d Q (m >>= k) :=
  h.bind h'
theorem SafeU.pure {P : α → Prop} {a : α} (h : P a) : SafeU E 0 P (Pure.pure a : Upd α) := fun _ hp _ hg => ⟨⟨Nat.le_refl _, hp, h⟩, hg⟩
theorem SafeU.rdP {d : Nat} {P : α → Prop} {r : Rd α} (h : Rd.SafeP E d P r) : SafeU E d P (rd r) := by
  intro p hp g hg
  have h1 := h p hp
  unfold rd Act.read
  cases e : r E p with
  | ok x => rw [e] at h1; exact ⟨h1, hg⟩
  | throw x => exact hg
  | ub => rw [e] at h1; exact h1
theorem SafeU.rd {d : Nat} {r : Rd α} (h : Rd.Safe E d r) : SafeU E d (fun _ => True) (rd r) := SafeU.rdP h.top
theorem SafeU.act {m : Act Graph α} (h : ∀ g : Graph, g.Sound → (m g).Leaves Graph.Sound) : SafeU E 0 (fun _ => True) (act m) := by
  intro p hp g hg
  have h1 := h g hg
  show InsideT E _ _ ((m >>= fun a => Pure.pure (a, p) : Act Graph _) g)
  cases e : m g with
  | ok x g' => rw [e] at h1; rw [Act.bind_ok e]; exact ⟨⟨Nat.le_refl _, hp, trivial⟩, h1⟩
  | throw x g' => rw [e] at h1; rw [Act.bind_throw e]; exact h1
  | ub => rw [e] at h1; exact h1.elim

theorem SafeU.dynLoop {S : Type} {body : S → Upd S} (hb : ∀ s, SafeU E 1 (fun _ => True) (body s)) (n : Nat) (s : S) {p : Nat} (hp : p ≤ E.buf.length)
    (hn : E.buf.length < p + n) {g : Graph} (hg : g.Sound) : InsideT E p (fun _ => True) (dynLoop body n s E p g) := by
  induction n generalizing s p g with
  | zero => omega
  | succ n ih =>
    unfold Upd.dynLoop
    have h1 := SafeU.rd (Rd.Safe.dynEnd (E := E)) p hp g hg
    show InsideT E _ _ ((Upd.rd Rd.dynEnd E p >>= fun a => (if a.1 = true then (Pure.pure s : Upd S) else body s >>= fun s => Upd.dynLoop body n s) E a.2 : Act Graph _) g)
    cases e : Upd.rd Rd.dynEnd E p g with
    | throw x g' => rw [e] at h1; rw [Act.bind_throw e]; exact h1
    | ub => rw [e] at h1; exact h1.elim
    | ok x g' =>
      rw [e] at h1
      rw [Act.bind_ok e]
      split
      · exact ⟨⟨by have := h1.1.1; omega, h1.1.2.1, trivial⟩, h1.2⟩
      · have h2 := hb s x.2 h1.1.2.1 g' h1.2
        show InsideT E _ _ ((body s E x.2 >>= fun a => Upd.dynLoop body n a.1 E a.2 : Act Graph _) g')
        cases e2 : body s E x.2 g' with
        | throw x g' => rw [e2] at h2; rw [Act.bind_throw e2]; exact h2
        | ub => rw [e2] at h2; exact h2.elim
        | ok y g2 =>
          rw [e2] at h2
          rw [Act.bind_ok e2]
          exact (ih y.1 h2.1.2.1 (by have := h1.1.1; have := h2.1.1; omega) h2.2).mono (by have := h1.1.1; have := h2.1.1; omega)

theorem SafeU.dynArr {S : Type} {body : S → Upd S} (hb : ∀ s, SafeU E 1 (fun _ => True) (body s)) (s : S) : SafeU E 0 (fun _ => True) (dynArr body s) := by
  unfold Upd.dynArr
  refine ((SafeU.rd Rd.Safe.dynStart).bind0 (fun _ _ => ?_)).mono (Nat.zero_le 1)
  intro p hp g hg
  exact SafeU.dynLoop hb (E.buf.length + 1) s hp (by omega) hg

theorem SafeU.parseNode (ho : E.isoOverflow = false) {fac : OMap UInt8 NodeClass} (hc : Rd.SafeClasses E fac) (s : OSet NodeId) :
    SafeU E 1 (fun _ => True) (parseNode fac s) := by
  unfold Upd.parseNode
  refine SafeU.mono (d := 5) ?_ (by omega)
  refine (SafeU.rd (Rd.Safe.checkArrLen 4)).bind0 (fun _ _ => ?_)
  refine SafeU.mono ((SafeU.rd Rd.Safe.u64).bind0 (fun l _ => ?_)) (Nat.zero_le 9)
  refine SafeU.mono ((SafeU.rd Rd.Safe.u64).bind0 (fun n _ => ?_)) (Nat.zero_le 9)
  refine SafeU.mono ((SafeU.rd (Rd.Safe.opt Rd.Safe.stamp (by omega))).bind0 (fun t _ => ?_)) (Nat.zero_le 1)
  refine SafeU.mono ((SafeU.rd (Rd.Safe.nodeAttrs ho hc)).bind0 (fun a _ => ?_)) (Nat.zero_le 2)
  cases a with
  | none => exact SafeU.pure trivial
  | some a => exact (SafeU.act (fun g hg => hg.addOrUpdateNodeT l n a t)).bind0 (fun _ _ => SafeU.pure trivial)

theorem SafeU.parseEdge {fac : OMap UInt8 EdgeClass} (s : Unit) : SafeU E 1 (fun _ => True) (parseEdge fac s) := by
  unfold Upd.parseEdge
  refine SafeU.mono (d := 5) ?_ (by omega)
  refine (SafeU.rd (Rd.Safe.checkArrLen 3)).bind0 (fun _ _ => ?_)
  refine SafeU.mono ((SafeU.rd Rd.Safe.u64).bind0 (fun s _ => ?_)) (Nat.zero_le 9)
  refine SafeU.mono ((SafeU.rd Rd.Safe.u64).bind0 (fun t _ => ?_)) (Nat.zero_le 9)
  refine SafeU.mono ((SafeU.rd Rd.Safe.edgeAttrs).bind0 (fun a _ => ?_)) (Nat.zero_le 2)
  exact (SafeU.act (fun g hg => hg.addOrUpdateEdgeT s t a)).bind0 (fun _ _ => SafeU.pure trivial)

theorem SafeU.meshPart : SafeU E 0 (fun _ => True) meshPart := by
  unfold Upd.meshPart
  refine (SafeU.rd Rd.Safe.checkIfTrue).bind0 (fun b _ => ?_)
  split
  · exact (SafeU.rd Rd.Safe.mesh).bind0 (fun m _ => SafeU.act (fun g hg => hg.setMesh (some m)))
  · exact SafeU.pure trivial

theorem leaves_each {β : Type} {f : β → Act Graph Unit} (hf : ∀ x (g : Graph), g.Sound → (f x g).Leaves Graph.Sound) (L : List β) {g : Graph} (hg : g.Sound) :
    (Act.each f L g).Leaves Graph.Sound := by
  induction L generalizing g with
  | nil => exact hg
  | cons x L ih =>
    have h1 := hf x g hg
    show Thru.Leaves _ ((f x >>= fun _ => Act.each f L) g)
    cases e : f x g with
    | ok u g' => rw [e] at h1; rw [Act.bind_ok e]; exact ih h1
    | throw x g' => rw [e] at h1; rw [Act.bind_throw e]; exact h1
    | ub => rw [e] at h1; exact h1.elim

theorem leaves_map {α β : Type} {g : Graph} {P : Graph → Prop} {m : Act Graph α} {f : α → β} (h : (m g).Leaves P) : ((m >>= fun a => (Pure.pure (f a) : Act Graph β)) g).Leaves P := by
  cases e : m g with
  | ok a s => rw [e] at h; rw [Act.bind_ok e]; exact h
  | throw a s => rw [e] at h; rw [Act.bind_throw e]; exact h
  | ub => rw [e] at h; exact h.elim

theorem SafeU.updateGraph (ho : E.isoOverflow = false) {R : Registry NodeClass} (hR : Rd.SafeRegistry E R) (Q : Registry EdgeClass)
    (order : List NodeId → List NodeId) : SafeU E 0 (fun _ => True) (updateGraph R Q order) := by
  unfold Upd.updateGraph
  refine (SafeU.rd Rd.Safe.meshLayer).bind0 (fun _ _ => ?_)
  refine (SafeU.rdP (Rd.SafeP.loadFactory R)).bind0 (fun nf hnf => ?_)
  obtain ⟨names, rfl⟩ := hnf
  refine (SafeU.rdP (Rd.SafeP.loadFactory Q)).bind0 (fun ef _ => ?_)
  have hb := SafeU.parseNode (E := E) ho (hR.factory names)
  refine (SafeU.act (m := Act.get) (fun g hg => hg)).bind0 (fun g0 _ => ?_)
  refine (SafeU.dynArr hb _).bind0 (fun s _ => (SafeU.dynArr hb s).bind0 (fun s _ => ?_))
  refine (SafeU.act (fun g hg => leaves_each (fun n g hg => leaves_map (hg.removeNodeT n)) _ hg)).bind0 (fun _ _ => ?_)
  refine (SafeU.act (m := Graph.modify _) (fun g hg => hg.markEdgesAsStale)).bind0 (fun _ _ => ?_)
  refine (SafeU.dynArr SafeU.parseEdge ()).bind0 (fun _ _ => ?_)
  exact (SafeU.act (fun g hg => hg.removeAllStaleEdgesT)).bind0 (fun _ _ => SafeU.meshPart)

theorem SafeU.updateGraphFrom (ho : E.isoOverflow = false) {R : Registry NodeClass} (hR : Rd.SafeRegistry E R) (Q : Registry EdgeClass)
    (order : List NodeId → List NodeId) : SafeU E 0 (fun _ => True) (updateGraphFrom R Q order) := by
  unfold Upd.updateGraphFrom
  refine SafeU.mono ((SafeU.rd (Rd.Safe.vec Rd.Safe.u64)).bind0 (fun ids _ => ?_)) (Nat.zero_le 5)
  refine (SafeU.act (m := Graph.modify _) (fun g hg => ?_)).bind0 (fun _ _ => SafeU.updateGraph ho hR Q order)
  show Graph.Sound (if g.layerIds ≠ ids then g.reset ids else g)
  split
  · exact hg.reset ids
  · exact hg
end Upd

/-- A receiving program: it keeps running on a sound graph, or an assertion ends it. -/
def Running.Fine (P : Graph → Prop) : Running → Prop
  | .up g => P g
  | .down => True
  | .corrupt => False

theorem Graph.Sound.serve1 {P : Prog} (ho : P.isoOverflow = false) (hR : P.eigenChecks = true ∨ ∀ e ∈ P.R.entries, e.2 ≠ NodeClass.agent) (v : Version)
    {g : Graph} (hg : g.Sound) (e : Event) (he : ∀ op, e = .call op → op.plainCall = true) : (g.serve1 P v e).Fine Graph.Sound := by
  cases e with
  | call op =>
    have h1 := hg.call (he op rfl)
    simp only [Graph.serve1]
    cases e : stepT op g with
    | ok a g' => rw [e] at h1; exact h1
    | throw a g' => rw [e] at h1; exact h1
    | ub => rw [e] at h1; exact h1
  | message m =>
    have h1 := Upd.SafeU.updateGraphFrom (E := P.env m.1 m.2 v) ho (R := P.R) hR P.Q P.order 0 (Nat.zero_le _) g hg
    simp only [Graph.serve1]
    cases e : Upd.updateGraphFrom P.R P.Q P.order (P.env m.1 m.2 v) 0 g with
    | ok a g' => rw [e] at h1; exact h1.2
    | throw a g' => rw [e] at h1; cases a <;> first | exact h1 | trivial
    | ub => rw [e] at h1; exact h1

theorem Graph.Sound.serve {P : Prog} (ho : P.isoOverflow = false) (hR : P.eigenChecks = true ∨ ∀ e ∈ P.R.entries, e.2 ≠ NodeClass.agent) (v : Version)
    (es : List Event) {g : Graph} (hg : g.Sound) (he : ∀ op, .call op ∈ es → op.plainCall = true) : (g.serve P v es).Fine Graph.Sound := by
  induction es generalizing g with
  | nil => exact hg
  | cons e es ih =>
    have h1 := hg.serve1 ho hR v e (fun op h => he op (h ▸ List.mem_cons_self))
    unfold Graph.serve
    cases h : g.serve1 P v e with
    | up g' => rw [h] at h1; exact ih h1 (fun op h => he op (List.mem_cons_of_mem _ h))
    | down => trivial
    | corrupt => rw [h] at h1; exact h1
end Verif
