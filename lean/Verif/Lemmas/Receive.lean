import Verif.Model.Receive
import Verif.Lemmas.Basic3
import Verif.Lemmas.Mem4
/-! # Applying a message in place: agreement with the other reader, and what is left behind -/

namespace Verif
open Res (Sat Keeps)

namespace Upd
variable {α β γ : Type}

/-! ## Agreement -/

/-- The two models of a piece of the reader agree. -/
def Same (m : Upd α) (r : Graph → Rd (Graph × α)) : Prop :=
  ∀ E p g, (m E p).res g = (r g E p >>= fun x => .ok (x.1.1, (x.1.2, x.2)))

theorem Same.of_eq {m : Upd α} {r r' : Graph → Rd (Graph × α)} (h : Same m r) (e : ∀ g, r g = r' g) : Same m r' := by
  have : r = r' := funext e
  rw [← this]; exact h
theorem Same.bind {m : Upd α} {r : Graph → Rd (Graph × α)} {k : α → Upd β} {k' : Graph × α → Rd (Graph × β)} (h : Same m r)
    (h' : ∀ a, Same (k a) (fun g => k' (g, a))) : Same (m >>= k) (fun g => r g >>= k') := by
  intro E p g
  show ((m E p >>= fun x => k x.1 E x.2) : Act Graph _).res g = _
  show _ = ((r g >>= k') E p >>= _)
  rw [Act.res_bind, h E p g, Rd.bind_apply]
  cases hr : r g E p with
  | ok x => exact h' x.1.2 E x.2 x.1.1
  | throw e => rfl
  | ub => rfl
theorem Same.rd {r : Rd α} {k : α → Upd β} {k' : Graph → α → Rd (Graph × β)} (h : ∀ a, Same (k a) (fun g => k' g a)) :
    Same (Upd.rd r >>= k) (fun g => r >>= k' g) := by
  intro E p g
  show ((Upd.rd r E p >>= fun x => k x.1 E x.2) : Act Graph _).res g = _
  show _ = ((r >>= k' g) E p >>= _)
  rw [Act.res_bind, Rd.bind_apply]
  simp only [Upd.rd, Act.res_read]
  cases hr : r E p with
  | ok x => exact h x.1 E x.2 g
  | throw e => rfl
  | ub => rfl
theorem Same.pure {f : Graph → Graph × α} {a : α} (h : ∀ g, f g = (g, a)) : Same (Pure.pure a : Upd α) (fun g => (Pure.pure (f g) : Rd (Graph × α))) := by
  intro E p g
  show _ = ((Pure.pure (f g) : Rd _) E p >>= _)
  rw [h]; rfl
theorem Same.act {m : Act Graph α} {r : Graph → Res (Graph × α)} (h : ∀ g, m.res g = r g) : Same (Upd.act m) (fun g => Rd.lift (r g)) := by
  intro E p g
  simp only [Upd.act, Act.res_bind, Act.res_pure, h, Rd.lift]
  cases r g <;> rfl
theorem Same.dynLoop {S : Type} {body : S → Upd S} {body' : Graph × S → Rd (Graph × S)} (h : ∀ s, Same (body s) (fun g => body' (g, s))) (n : Nat) (s : S) :
    Same (Upd.dynLoop body n s) (fun g => Rd.dynLoop body' n (g, s)) := by
  induction n generalizing s with
  | zero => intro E p g; rfl
  | succ n ih =>
    unfold Upd.dynLoop Rd.dynLoop
    refine Same.rd (fun e => ?_)
    cases e
    · exact Same.bind (h s) (fun s => ih s)
    · exact Same.pure (fun g => rfl)
theorem Same.dynArr {S : Type} {body : S → Upd S} {body' : Graph × S → Rd (Graph × S)} (h : ∀ s, Same (body s) (fun g => body' (g, s))) (s : S) :
    Same (Upd.dynArr body s) (fun g => Rd.dynArr body' (g, s)) := by
  unfold Upd.dynArr Rd.dynArr
  exact Same.rd (fun _ => Same.rd (fun E => Same.dynLoop h _ s))

theorem same_parseNode (fac : OMap UInt8 NodeClass) (s : OSet NodeId) : Same (parseNode fac s) (fun g => Rd.parseNode fac (g, s)) := by
  unfold parseNode Rd.parseNode
  refine Same.rd (fun _ => Same.rd (fun l => Same.rd (fun n => Same.rd (fun t => Same.rd (fun a => ?_)))))
  cases a with
  | none => exact Same.pure (fun g => rfl)
  | some a =>
    exact Same.bind (m := Upd.act _) (r := fun g => Rd.lift (g.addOrUpdateNode l n (some a) t)) (k' := fun r => (Pure.pure (r.1, s.erase n) : Rd (Graph × OSet NodeId)))
      (Same.act (fun g => Graph.res_addOrUpdateNodeT l n (some a) t g)) (fun b => Same.pure (fun g => rfl))

theorem bind_unit (r : Rd Graph) {f : Graph × Unit → Rd β} : ((r >>= fun g => (Pure.pure (g, ()) : Rd (Graph × Unit))) >>= f) = (r >>= fun g => f (g, ())) := by
  funext E p
  simp only [Rd.bind_apply]
  cases r E p <;> rfl

theorem same_parseEdge (fac : OMap UInt8 EdgeClass) (s : Unit) :
    Same (parseEdge fac s) (fun g => Rd.parseEdge fac g >>= fun g => (Pure.pure (g, ()) : Rd (Graph × Unit))) := by
  refine Same.of_eq (r := fun g => Rd.checkArrLen 3 >>= fun _ => Rd.u64 >>= fun s => Rd.u64 >>= fun t => Rd.edgeAttrs fac >>= fun a =>
    Rd.lift (g.addOrUpdateEdge s t a) >>= fun r => (Pure.pure (r.1, ()) : Rd (Graph × Unit))) ?_ (fun g => ?_)
  · unfold parseEdge
    refine Same.rd (fun _ => Same.rd (fun s => Same.rd (fun t => Same.rd (fun a => ?_))))
    exact Same.bind (m := Upd.act _) (r := fun g => Rd.lift (g.addOrUpdateEdge s t a)) (k' := fun r => (Pure.pure (r.1, ()) : Rd (Graph × Unit)))
      (Same.act (fun g => Graph.res_addOrUpdateEdgeT s t a g)) (fun b => Same.pure (fun g => rfl))
  · unfold Rd.parseEdge
    funext E p
    simp only [Rd.bind_apply, Res.bind_assoc']
    rfl

theorem dynLoop_unit (body : Graph → Rd Graph) (n : Nat) (g : Graph) :
    Rd.dynLoop (fun s : Graph × Unit => body s.1 >>= fun g => (Pure.pure (g, ()) : Rd (Graph × Unit))) n (g, ())
      = (Rd.dynLoop body n g >>= fun g => (Pure.pure (g, ()) : Rd (Graph × Unit))) := by
  induction n generalizing g with
  | zero => rfl
  | succ n ih =>
    unfold Rd.dynLoop
    funext E p
    simp only [Rd.bind_apply]
    cases Rd.dynEnd E p with
    | throw e => rfl
    | ub => rfl
    | ok x =>
      obtain ⟨e, q⟩ := x
      simp only [Res.bind_ok]
      cases e
      · simp only [Bool.false_eq_true, if_false, Rd.bind_apply, Res.bind_assoc']
        cases body g E q with
        | throw e => rfl
        | ub => rfl
        | ok y =>
          show Rd.dynLoop _ n (y.1, ()) E y.2 = _
          rw [ih]; rfl
      · rfl
theorem dynArr_unit (body : Graph → Rd Graph) (g : Graph) :
    Rd.dynArr (fun s : Graph × Unit => body s.1 >>= fun g => (Pure.pure (g, ()) : Rd (Graph × Unit))) (g, ())
      = (Rd.dynArr body g >>= fun g => (Pure.pure (g, ()) : Rd (Graph × Unit))) := by
  unfold Rd.dynArr
  funext E p
  simp only [dynLoop_unit, Rd.bind_apply, Res.bind_assoc']

/-- A graph action that only writes, as a `Res`. -/
theorem Same.unit {m : Act Graph Unit} {r : Graph → Res Graph} {k : Unit → Upd β} {k' : Graph → Rd (Graph × β)} (h : ∀ g, m.res g = (r g >>= fun g' => .ok (g', ())))
    (h' : Same (k ()) k') : Same (Upd.act m >>= k) (fun g => Rd.lift (r g) >>= k') := by
  refine Same.of_eq (Same.bind (Same.act h) (k' := fun x => k' x.1) (fun a => h')) (fun g => ?_)
  funext E p
  simp only [Rd.bind_apply, Rd.lift, Res.bind_assoc']
  cases r g <;> rfl
theorem Same.modify {f : Graph → Graph} {k : Unit → Upd β} {k' : Graph → Rd (Graph × β)} (h' : Same (k ()) k') :
    Same (Upd.act (Graph.modify f) >>= k) (fun g => k' (f g)) :=
  Same.of_eq (Same.unit (r := fun g => .ok (f g)) (fun _ => rfl) h') (fun _ => rfl)
theorem Same.get {S : Type} {f : Graph → S} {k : S → Upd β} {k' : Graph × S → Rd (Graph × β)} (h : ∀ s, Same (k s) (fun g => k' (g, s))) :
    Same (Upd.act Act.get >>= fun g => k (f g)) (fun g => k' (g, f g)) :=
  fun E p g => h (f g) E p g

theorem same_meshPart : Same meshPart (fun g => Rd.meshPart g >>= fun g => (Pure.pure (g, ()) : Rd (Graph × Unit))) := by
  refine Same.of_eq (r := fun g => Rd.checkIfTrue >>= fun b => if b = true then Rd.mesh >>= fun m => (Pure.pure (g.setMesh (some m), ()) : Rd (Graph × Unit))
    else (Pure.pure (g, ()) : Rd (Graph × Unit))) ?_ (fun g => ?_)
  · unfold meshPart
    refine Same.rd (fun b => ?_)
    cases b
    · exact Same.pure (fun g => rfl)
    · exact Same.rd (fun m => fun E p g => rfl)
  · unfold Rd.meshPart
    funext E p
    simp only [Rd.bind_apply, Res.bind_assoc']
    cases Rd.checkIfTrue E p with
    | throw e => rfl
    | ub => rfl
    | ok x =>
      obtain ⟨b, q⟩ := x
      cases b
      · rfl
      · simp only [Res.bind_ok, if_true, Rd.bind_apply, Res.bind_assoc']; rfl

theorem same_drop (L : List NodeId) (g : Graph) :
    (Act.each (fun n => Graph.removeNodeT n >>= fun _ => (Pure.pure () : Act Graph Unit)) L).res g
      = (foldRes (fun g n => g.removeNode n >>= fun r => .ok r.1) g L >>= fun g' => .ok (g', ())) := by
  rw [Act.res_each]
  congr 2
  funext g n
  rw [Act.res_bind, Graph.res_removeNodeT]
  cases g.removeNode n <;> rfl

/-- The end of an update, from the removal of the nodes that were not sent. -/
def tailOf (Q : OMap UInt8 EdgeClass) (order : List NodeId → List NodeId) (s : Graph × OSet NodeId) : Rd (Graph × Unit) := do
  let g ← Rd.lift (foldRes (fun g n => g.removeNode n >>= fun r => .ok r.1) s.1 (order s.2.keys))
  let g ← Rd.dynArr (Rd.parseEdge Q) g.markEdgesAsStale
  let g ← Rd.lift g.removeAllStaleEdges
  let g ← Rd.meshPart g
  Rd.pure (g, ())

theorem same_updateGraph (R : Registry NodeClass) (Q : Registry EdgeClass) (order : List NodeId → List NodeId) :
    Same (updateGraph R Q order) (fun g => Rd.updateGraph R Q order g >>= fun g => (Pure.pure (g, ()) : Rd (Graph × Unit))) := by
  refine Same.of_eq (r := fun g => Rd.meshLayer >>= fun _ => Rd.loadFactory R >>= fun nf => Rd.loadFactory Q >>= fun ef =>
    (fun s => Rd.dynArr (Rd.parseNode nf) s >>= fun s => Rd.dynArr (Rd.parseNode nf) s >>= fun s => tailOf ef order s) (g, g.lookup.map (fun _ _ => ()))) ?_ (fun g => ?_)
  · unfold updateGraph
    refine Same.rd (fun _ => Same.rd (fun nf => Same.rd (fun ef => ?_)))
    refine Same.get (f := fun g => g.lookup.map (fun _ _ => ())) (k := fun st => dynArr (parseNode nf) st >>= fun stale => dynArr (parseNode nf) stale >>= fun stale =>
        act (Act.each (fun n => Graph.removeNodeT n >>= fun _ => (Pure.pure () : Act Graph Unit)) (order stale.keys)) >>= fun _ =>
        act (Graph.modify (fun g => g.markEdgesAsStale)) >>= fun _ => dynArr (parseEdge ef) () >>= fun _ => act Graph.removeAllStaleEdgesT >>= fun _ => meshPart)
      (k' := fun s => Rd.dynArr (Rd.parseNode nf) s >>= fun s => Rd.dynArr (Rd.parseNode nf) s >>= fun s => tailOf ef order s) (fun st => ?_)
    refine Same.bind (Same.dynArr (same_parseNode nf) st) (fun st => Same.bind (Same.dynArr (same_parseNode nf) st) (fun st => ?_))
    refine Same.unit (r := fun g => foldRes (fun g n => g.removeNode n >>= fun r => .ok r.1) g (order st.keys))
      (k' := fun g => Rd.dynArr (Rd.parseEdge ef) g.markEdgesAsStale >>= fun g => Rd.lift g.removeAllStaleEdges >>= fun g => Rd.meshPart g >>= fun g => Rd.pure (g, ()))
      (same_drop _) ?_
    refine Same.modify (f := Graph.markEdgesAsStale) (k' := fun g => Rd.dynArr (Rd.parseEdge ef) g >>= fun g => Rd.lift g.removeAllStaleEdges >>= fun g => Rd.meshPart g >>= fun g => Rd.pure (g, ())) ?_
    refine Same.of_eq (Same.bind (Same.dynArr (body' := fun s => Rd.parseEdge ef s.1 >>= fun g => (Pure.pure (g, ()) : Rd (Graph × Unit))) (same_parseEdge ef) ())
      (k' := fun s => Rd.lift s.1.removeAllStaleEdges >>= fun g => Rd.meshPart g >>= fun g => (Pure.pure (g, ()) : Rd (Graph × Unit))) (fun _ => ?_)) (fun g => ?_)
    · exact Same.unit (r := fun g => g.removeAllStaleEdges) Graph.res_removeAllStaleEdgesT same_meshPart
    · rw [dynArr_unit, bind_unit]; rfl
  · unfold Rd.updateGraph tailOf
    funext E p
    simp only [Rd.bind_apply, Res.bind_assoc']
    rfl

/-- **The two models of applying a message agree.** -/
theorem same_updateGraphFrom (R : Registry NodeClass) (Q : Registry EdgeClass) (order : List NodeId → List NodeId) :
    Same (updateGraphFrom R Q order) (fun g => Rd.updateGraphFrom R Q order g >>= fun g => (Pure.pure (g, ()) : Rd (Graph × Unit))) := by
  refine Same.of_eq (r := fun g => Rd.vec Rd.u64 >>= fun ids => Rd.updateGraph R Q order (if g.layerIds ≠ ids then g.reset ids else g) >>= fun g =>
    (Pure.pure (g, ()) : Rd (Graph × Unit))) ?_ (fun g => ?_)
  · unfold updateGraphFrom
    refine Same.rd (fun ids => ?_)
    exact Same.modify (f := fun g => if g.layerIds ≠ ids then g.reset ids else g) (k := fun _ => updateGraph R Q order)
      (k' := fun g => Rd.updateGraph R Q order g >>= fun g => (Pure.pure (g, ()) : Rd (Graph × Unit))) (same_updateGraph R Q order)
  · unfold Rd.updateGraphFrom
    funext E p
    simp only [Rd.bind_apply, Res.bind_assoc']

theorem res_updateGraphFrom (R : Registry NodeClass) (Q : Registry EdgeClass) (order : List NodeId → List NodeId) (E : Env) (p : Nat) (g : Graph) :
    ((updateGraphFrom R Q order E p).res g >>= fun x => .ok (x.1, x.2.2)) = Rd.updateGraphFrom R Q order g E p := by
  rw [same_updateGraphFrom R Q order E p g]
  show (((Rd.updateGraphFrom R Q order g >>= fun g => (Pure.pure (g, ()) : Rd (Graph × Unit))) E p >>= _) >>= _) = _
  rw [Rd.bind_apply]
  cases Rd.updateGraphFrom R Q order g E p <;> rfl

end Upd
end Verif
