import Verif.Spec.Format
import Verif.Lemmas.Codec
import Verif.Model.GraphIO
import Verif.Refine.Refused
/-! # Reading a graph is running a history of public calls -/

namespace Verif
namespace Rd
variable {E : Env} {α β S X : Type}

/-- A step that reads nothing. -/
theorem RT.skip {w : Wr} {r : Rd α} {k : α → Rd β} {a : α} {b : β} (h : ∀ p, r E p = .ok (a, p)) (h' : RT E w (k a) b) :
    RT E w (r >>= k) b := by
  intro bs pre post hw hb
  rw [bind_apply, h]
  simp only [Res.bind_ok]
  exact h' bs pre post hw hb

theorem RT.last {r : Rd α} {a : α} (h : ∀ p, r E p = .ok (a, p)) : RT E Wr.nil r a := by
  intro bs pre post hw _
  cases hw
  exact h _

theorem lift_ok {r : Res α} {a : α} (h : r = .ok a) (p : Nat) : lift r E p = .ok (a, p) := by
  subst h; rfl

/-- What the items of a dynamic array do to the state of the reading loop. -/
inductive Loop (E : Env) (f : X → Wr) (body : S → Rd S) : S → List X → S → Prop
  | nil (s : S) : Loop E f body s [] s
  | cons {s s' s'' : S} {x : X} {xs : List X} (h : RT E (f x) (body s) s') (hn : NotHead Pack.arrEnd (f x)) (t : Loop E f body s' xs s'') :
      Loop E f body s (x :: xs) s''

theorem Loop.append {f : X → Wr} {body : S → Rd S} {s s' s'' : S} {xs ys : List X} (h : Loop E f body s xs s')
    (h' : Loop E f body s' ys s'') : Loop E f body s (xs ++ ys) s'' := by
  induction h with
  | nil s => exact h'
  | cons a b _ ih => exact .cons a b (ih h')

theorem RT.dynLoop {f : X → Wr} {body : S → Rd S} {s s' : S} {xs : List X} (h : Loop E f body s xs s') :
    ∀ fuel, xs.length + 1 ≤ fuel → RT E (Wr.seq (Wr.all f xs) (Wr.type Pack.arrEnd)) (dynLoop body fuel s) s' := by
  induction h with
  | nil s =>
    intro fuel hf bs pre post hw hb
    obtain ⟨n, rfl⟩ : ∃ n, fuel = n + 1 := ⟨fuel - 1, by simp at hf; omega⟩
    obtain ⟨b1, b2, h1, h2, rfl⟩ := seq_ok hw
    cases h1
    cases h2
    simp only [List.nil_append] at hb ⊢
    unfold Rd.dynLoop dynEnd
    simp only [bind_apply]
    rw [currType_spec (rest := []) hb]
    simp [advance, bind_apply, pure_apply]
  | @cons s s' s'' x xs hx hn _ ih =>
    intro fuel hf bs pre post hw hb
    obtain ⟨n, rfl⟩ : ∃ n, fuel = n + 1 := ⟨fuel - 1, by simp at hf; omega⟩
    obtain ⟨b1, b2, h1, h2, rfl⟩ := seq_ok hw
    obtain ⟨c1, c2, h3, h4, rfl⟩ := seq_ok h1
    obtain ⟨b, rest, rfl, hne⟩ := hn c1 h3
    unfold Rd.dynLoop dynEnd
    simp only [bind_apply]
    rw [currType_spec (rest := rest ++ c2 ++ b2) (by simpa using hb)]
    simp only [Res.bind_ok, ne_eq, hne, not_false_eq_true, if_true, pure_apply, Bool.false_eq_true, if_false, bind_apply]
    rw [hx (b :: rest) pre (c2 ++ b2 ++ post) h3 (by simpa using hb)]
    simp only [Res.bind_ok]
    have := ih n (by simp at hf; omega) (c2 ++ b2) (pre ++ b :: rest) post (by rw [h4, h2]; rfl) (by simpa using hb)
    simp only [List.length_append] at this ⊢
    rw [this]
    simp [Nat.add_assoc]

theorem all_length {f : X → Wr} {t : UInt8} {xs : List X} (h : ∀ x ∈ xs, NotHead t (f x)) {bs : List UInt8} (hb : Wr.all f xs = .ok bs) :
    xs.length ≤ bs.length := by
  induction xs generalizing bs with
  | nil => simp
  | cons x xs ih =>
    obtain ⟨b1, b2, h1, h2, rfl⟩ := seq_ok hb
    obtain ⟨c, rest, rfl, _⟩ := h x List.mem_cons_self b1 h1
    have := ih (fun y hy => h y (List.mem_cons_of_mem _ hy)) h2
    simp
    omega

theorem Loop.notHead {f : X → Wr} {body : S → Rd S} {s s' : S} {xs : List X} (h : Loop E f body s xs s') :
    ∀ x ∈ xs, NotHead Pack.arrEnd (f x) := by
  induction h with
  | nil s => simp
  | cons _ hn _ ih =>
    intro y hy
    rcases List.mem_cons.1 hy with rfl | hy
    · exact hn
    · exact ih y hy

theorem RT.dynArr {f : X → Wr} {body : S → Rd S} {s s' : S} {xs : List X} (h : Loop E f body s xs s') :
    RT E (Wr.dynArr f xs) (dynArr body s) s' := by
  intro bs pre post hw hb
  unfold Rd.dynArr
  refine RT.bind (RT.checkType Pack.arrStart) (k := fun _ => env >>= fun E => Rd.dynLoop body (E.buf.length + 1) s) ?_ bs pre post hw hb
  intro bs' pre' post' hw' hb'
  rw [bind_apply]
  simp only [env, Res.bind_ok]
  refine RT.dynLoop h _ ?_ bs' pre' post' hw' hb'
  obtain ⟨b1, b2, h1, h2, rfl⟩ := seq_ok hw'
  have := all_length h.notHead h1
  have : E.buf.length = pre'.length + (b1.length + b2.length) + post'.length := by rw [hb']; simp; omega
  omega

/-! ## Items -/

theorem NotHead.arr {n : Nat} {w : Wr} : NotHead Pack.arrEnd (Wr.seq (Wr.arrLen n) w) := by
  intro bs h
  obtain ⟨b1, b2, h1, h2, rfl⟩ := seq_ok h
  unfold Wr.arrLen at h1
  split at h1
  · cases h1
  · cases h1
    exact ⟨Pack.arr32, _, rfl, by decide⟩

/-- What is written of a node depends only on its info. -/
def recOf (e : NodeId × NodeInfo) : Node := { id := e.1, layer := e.2.key.layer, timestamp := e.2.stamp, attrs := some e.2.attrs }

/-- Under the version in force, what a format lays out is read as it says. -/
def _root_.Verif.Fmt.Reads (F : Fmt) (E : Env) : Prop :=
  E.version.lt ⟨1, 0, 2⟩ = false ∧ ∀ n a, a.Typed → RT E (F.fields n a) (fields a.cls) (F.kept n a)

theorem _root_.Verif.Fmt.reads_current (hv : E.version = FileHeader.current.version) : Fmt.current.Reads E :=
  ⟨by rw [hv]; decide, fun _ a ha => RT.fields hv a ha⟩

theorem _root_.Verif.Fmt.Reads.nodeAttrs {F : Fmt} (hv : F.Reads E) {W : Registry NodeClass} {fac : OMap UInt8 NodeClass} (n : NodeId) (a : NodeAttrs)
    (ha : a.Typed) (hf : fac.find? (W.typeId a.cls) = some a.cls) :
    RT E (Wr.seq (Wr.u8 (W.typeId a.cls)) (F.fields n a)) (Rd.nodeAttrs fac) (some (F.kept n a)) := by
  unfold Rd.nodeAttrs
  refine RT.bind (RT.u8 _) ?_
  rw [hf]
  exact (hv.2 n a ha).map _

variable {F : Fmt}

theorem RT.parseNode (hv : F.Reads E) {W : Registry NodeClass} {fac : OMap UInt8 NodeClass} {g g' : Graph}
    {st : OSet NodeId} {out : Out} (e : NodeId × NodeInfo) (ha : e.2.attrs.Typed)
    (hf : fac.find? (W.typeId e.2.attrs.cls) = some e.2.attrs.cls)
    (hg : g.step (.addOrUpdateNode e.2.key.layer e.1 (F.kept e.1 e.2.attrs) e.2.stamp) = .ok (g', out)) :
    RT E (Wr.nodeAs F W (some (recOf e))) (parseNode fac (g, st)) (g', st.erase e.1) := by
  unfold Wr.nodeAs Rd.parseNode
  simp only [recOf]
  refine RT.bind (RT.checkArrLen 4 4) (RT.bind (RT.u64 _) (RT.bind (RT.u64 _) (RT.bind (RT.opt _ ?_) ?_)))
  · intro t _
    refine ⟨RT.stamp t, ?_⟩
    intro bs h
    cases h
    exact ⟨Pack.i64, _, rfl, by decide⟩
  · have h1 := hv.nodeAttrs (W := W) e.1 e.2.attrs ha hf
    obtain ⟨b, h2⟩ : ∃ b, g.addOrUpdateNode e.2.key.layer e.1 (some (F.kept e.1 e.2.attrs)) e.2.stamp = .ok (g', b) := by
      obtain ⟨r, h3, h4⟩ := bind_eq_ok hg
      cases h4
      exact ⟨r.2, h3⟩
    intro bs pre post hw hb
    rw [bind_apply, h1 bs pre post hw hb]
    simp only [Res.bind_ok]
    rw [bind_apply, lift_ok h2]
    rfl

theorem RT.parseEdge {W : Registry EdgeClass} {fac : OMap UInt8 EdgeClass} {g g' : Graph} {out : Out} (e : EdgeInfo)
    (hf : fac.find? (W.typeId .base) = some .base)
    (hg : g.step (.addOrUpdateEdge e.src e.tgt (some e.attrs)) = .ok (g', out)) :
    RT E (Wr.edge W (Spec.mkEdge e)) (parseEdge fac g) g' := by
  unfold Wr.edge Rd.parseEdge
  simp only [Spec.mkEdge]
  refine RT.bind (RT.checkArrLen 3 3) (RT.bind (RT.u64 _) (RT.bind (RT.u64 _) ?_))
  have h1 := RT.edgeAttrs (E := E) (R := W) e.attrs hf
  obtain ⟨b, h2⟩ : ∃ b, g.addOrUpdateEdge e.src e.tgt (some e.attrs) = .ok (g', b) := by
    obtain ⟨r, h3, h4⟩ := bind_eq_ok hg
    cases h4
    exact ⟨r.2, h3⟩
  intro bs pre post hw hb
  rw [bind_apply, h1 bs pre post hw hb]
  simp only [Res.bind_ok]
  rw [bind_apply, lift_ok h2]
  rfl

end Rd

/-! ## The history a message stands for -/

/-- The call made for a node of the message. -/
def nodeOp (F : Fmt) (e : NodeId × NodeInfo) : Op := .addOrUpdateNode e.2.key.layer e.1 (F.kept e.1 e.2.attrs) e.2.stamp
/-- The call made for an edge of the message. -/
def edgeOp (e : EdgeInfo) : Op := .addOrUpdateEdge e.src e.tgt (some e.attrs)

/-- the operation that installs the mesh of the message, if there is one -/
def meshOps : Option Mesh → List Op
  | none => []
  | some m => [.setMesh (some m)]

/-- All the calls made for a message: nodes, removals, edges, mesh. -/
def syncOps (F : Fmt) (N : List (NodeId × NodeInfo)) (rm : List NodeId) (Es : List EdgeInfo) (mesh : Option Mesh) : List Op :=
  N.map (nodeOp F) ++ (rm.map .removeNode ++ (.markStale :: (Es.map edgeOp ++ (.sweep :: meshOps mesh))))

theorem Graph.run_split {g g' : Graph} {a b : List Op} {outs : List Out} (h : g.run (a ++ b) = .ok (g', outs)) :
    ∃ g1 o1 o2, g.run a = .ok (g1, o1) ∧ g1.run b = .ok (g', o2) := by
  rw [Graph.run_append] at h
  obtain ⟨r, h1, h2⟩ := bind_eq_ok h
  obtain ⟨r', h3, h4⟩ := bind_eq_ok h2
  cases h4
  exact ⟨r.1, r.2, r'.2, h1, h3⟩

theorem Graph.run_cons {g g' : Graph} {a : Op} {b : List Op} {outs : List Out} (h : g.run (a :: b) = .ok (g', outs)) :
    ∃ g1 o1 o2, g.step a = .ok (g1, o1) ∧ g1.run b = .ok (g', o2) := by
  unfold Graph.run at h
  obtain ⟨r, h1, h2⟩ := bind_eq_ok h
  obtain ⟨r', h3, h4⟩ := bind_eq_ok h2
  cases h4
  exact ⟨r.1, r.2, r'.2, h1, h3⟩

namespace Rd
variable {E : Env} {F : Fmt}

theorem Loop.nodes (hv : F.Reads E) {W : Registry NodeClass} {fac : OMap UInt8 NodeClass}
    (N : List (NodeId × NodeInfo)) (ha : ∀ e ∈ N, e.2.attrs.Typed ∧ fac.find? (W.typeId e.2.attrs.cls) = some e.2.attrs.cls) {g g' : Graph}
    {outs : List Out} (hg : g.run (N.map (nodeOp F)) = .ok (g', outs)) (st : OSet NodeId) :
    Loop E (Wr.nodeAs F W) (parseNode fac) (g, st) (N.map (fun e => some (recOf e))) (g', N.foldl (fun s e => s.erase e.1) st) := by
  induction N generalizing g st outs with
  | nil => cases hg; exact .nil _
  | cons e N ih =>
    obtain ⟨g1, o1, o2, h1, h2⟩ := Graph.run_cons hg
    obtain ⟨h3, h4⟩ := ha e List.mem_cons_self
    exact .cons (RT.parseNode hv e h3 h4 h1) NotHead.arr (ih (fun x hx => ha x (List.mem_cons_of_mem _ hx)) h2 _)

theorem Loop.edges {W : Registry EdgeClass} {fac : OMap UInt8 EdgeClass} (Es : List EdgeInfo)
    (hf : fac.find? (W.typeId .base) = some .base) {g g' : Graph}
    {outs : List Out} (hg : g.run (Es.map edgeOp) = .ok (g', outs)) :
    Loop E (Wr.edge W) (parseEdge fac) g (Es.map Spec.mkEdge) g' := by
  induction Es generalizing g outs with
  | nil => cases hg; exact .nil _
  | cons e Es ih =>
    obtain ⟨g1, o1, o2, h1, h2⟩ := Graph.run_cons hg
    exact .cons (RT.parseEdge e hf h1) NotHead.arr (ih h2)

theorem removals {g g' : Graph} {outs : List Out} (rm : List NodeId) (hg : g.run (rm.map .removeNode) = .ok (g', outs)) :
    foldRes (fun g n => g.removeNode n >>= fun r => .ok r.1) g rm = .ok g' := by
  induction rm generalizing g outs with
  | nil => cases hg; rfl
  | cons n rm ih =>
    obtain ⟨g1, o1, o2, h1, h2⟩ := Graph.run_cons hg
    simp only [Graph.step, Graph.ans] at h1
    obtain ⟨r, h3, h4⟩ := bind_eq_ok h1
    cases h4
    simp only [foldRes, h3, Res.bind_ok]
    exact ih h2

theorem RT.loadFactory {γ δ : Type} (hv : F.Reads E) (W : Registry γ) (R : Registry δ) :
    RT E (Wr.vec Wr.str W.names) (loadFactory R) (factory W.names R) := by
  unfold Rd.loadFactory
  refine RT.skip (a := E) (fun p => rfl) ?_
  rw [if_neg (by rw [hv.1]; decide)]
  exact (RT.vec _ (fun a _ => RT.str a)).map (fun names => factory names R)

/-- The message body written for nodes `A` (static), `D` (dynamic), edges and mesh. -/
def body (F : Fmt) (W : Registry NodeClass) (V : Registry EdgeClass) (A D : List (NodeId × NodeInfo)) (Es : List EdgeInfo) (mesh : Option Mesh) : Wr :=
  Wr.seq (Wr.vec Wr.str W.names) (Wr.seq (Wr.vec Wr.str V.names)
    (Wr.seq (Wr.dynArr (Wr.nodeAs F W) (A.map (fun e => some (recOf e)))) (Wr.seq (Wr.dynArr (Wr.nodeAs F W) (D.map (fun e => some (recOf e))))
      (Wr.seq (Wr.dynArr (Wr.edge V) (Es.map Spec.mkEdge))
        (match mesh with
         | none => Wr.bool false
         | some m => Wr.seq (Wr.bool true) (Wr.mesh m))))))

theorem RT.checkIfTrue (b : Bool) : RT E (Wr.bool b) checkIfTrue b := by
  intro bs pre post hw hb
  unfold Rd.checkIfTrue
  have : (do let t ← currType; Rd.checkType t; return t : Rd UInt8) E pre.length
      = .ok (if b then Pack.true_ else Pack.false_, pre.length + bs.length) := by
    cases hw
    rw [bind_apply, currType_spec (rest := []) hb]
    simp only [Res.bind_ok]
    exact ((RT.checkType (if b = true then Pack.true_ else Pack.false_)).map (fun _ => if b = true then Pack.true_ else Pack.false_)) _ pre post rfl hb
  rw [this]
  cases b <;> rfl

/-- The message without its last part, the mesh. -/
def bodyCore (F : Fmt) (W : Registry NodeClass) (V : Registry EdgeClass) (A D : List (NodeId × NodeInfo)) (Es : List EdgeInfo) : Wr :=
  Wr.seq (Wr.vec Wr.str W.names) (Wr.seq (Wr.vec Wr.str V.names)
    (Wr.seq (Wr.dynArr (Wr.nodeAs F W) (A.map (fun e => some (recOf e)))) (Wr.seq (Wr.dynArr (Wr.nodeAs F W) (D.map (fun e => some (recOf e))))
      (Wr.dynArr (Wr.edge V) (Es.map Spec.mkEdge)))))

/-- The last part of a message. -/
def meshTail (mesh : Option Mesh) : Wr :=
  match mesh with
  | none => Wr.bool false
  | some m => Wr.seq (Wr.bool true) (Wr.mesh m)

/-- `updateGraph` without its last part, the mesh. -/
def updateCore (R : Registry NodeClass) (Q : Registry EdgeClass) (order : List NodeId → List NodeId) (g : Graph) : Rd Graph := do
  meshLayer
  let nf ← loadFactory R
  let ef ← loadFactory Q
  let s ← dynArr (parseNode nf) (g, g.lookup.map (fun _ _ => ()))
  let s ← dynArr (parseNode nf) s
  let g ← lift (foldRes (fun g n => g.removeNode n >>= fun r => .ok r.1) s.1 (order s.2.keys))
  let g ← dynArr (parseEdge ef) g.markEdgesAsStale
  lift g.removeAllStaleEdges

theorem bind_assoc' {α β γ : Type} (r : Rd α) (k : α → Rd β) (l : β → Rd γ) : ((r >>= k) >>= l) = (r >>= fun a => k a >>= l) := by
  funext E p
  simp only [bind_apply]
  cases r E p <;> rfl

theorem updateGraph_eq (R : Registry NodeClass) (Q : Registry EdgeClass) (order : List NodeId → List NodeId) (g : Graph) :
    updateGraph R Q order g = (updateCore R Q order g >>= meshPart) := by
  unfold updateGraph updateCore
  simp only [bind_assoc']

theorem seq_assoc (a b c : Wr) : (a.seq b).seq c = a.seq (b.seq c) := by
  unfold Wr.seq
  cases a with
  | ok x => cases b with
    | ok y => cases c <;> simp
    | throw e => rfl
    | ub => rfl
  | throw e => rfl
  | ub => rfl

theorem body_eq (F : Fmt) (W : Registry NodeClass) (V : Registry EdgeClass) (A D : List (NodeId × NodeInfo)) (Es : List EdgeInfo) (mesh : Option Mesh) :
    body F W V A D Es mesh = (bodyCore F W V A D Es).seq (meshTail mesh) := by
  unfold body bodyCore meshTail
  simp only [seq_assoc]

theorem RT.bind_last {α β : Type} {w : Wr} {r : Rd α} {k : α → Rd β} {a : α} {b : β} (h : RT E w r a) (h' : ∀ p, k a E p = .ok (b, p)) :
    RT E w (r >>= k) b := by
  intro bs pre post hw hb
  rw [bind_apply, h bs pre post hw hb]
  exact h' _

theorem RT.updateCore (hv : F.Reads E) {W R : Registry NodeClass} {V Q : Registry EdgeClass}
    {order : List NodeId → List NodeId} {g g' : Graph} {outs : List Out} {A D : List (NodeId × NodeInfo)} {Es : List EdgeInfo}
    (ha : ∀ e ∈ A ++ D, e.2.attrs.Typed ∧ (factory W.names R).find? (W.typeId e.2.attrs.cls) = some e.2.attrs.cls)
    (hf : (factory V.names Q).find? (V.typeId .base) = some .base)
    (hrun : g.run (syncOps F (A ++ D) (order ((A ++ D).foldl (fun s e => s.erase e.1) (g.lookup.map (fun _ _ => ()))).keys) Es none) =
      .ok (g', outs)) : RT E (bodyCore F W V A D Es) (updateCore R Q order g) g' := by
  unfold syncOps at hrun
  obtain ⟨g1, o1, hrun, h1, h2⟩ := Graph.run_split hrun
  obtain ⟨g2, o2, _, h3, h4⟩ := Graph.run_split h2
  obtain ⟨g3, o3, _, h5, h6⟩ := Graph.run_cons h4
  obtain ⟨g4, o4, _, h7, h8⟩ := Graph.run_split h6
  obtain ⟨g5, o5, _, h9, h10⟩ := Graph.run_cons h8
  rw [List.map_append] at h1
  obtain ⟨g0, o6, _, h11, h12⟩ := Graph.run_split h1
  have l1 := Loop.nodes (E := E) hv A (fun e he => ha e (List.mem_append_left _ he)) h11 (g.lookup.map (fun _ _ => ()))
  have l2 := Loop.nodes (E := E) hv D (fun e he => ha e (List.mem_append_right _ he)) h12 (A.foldl (fun s e => s.erase e.1) (g.lookup.map (fun _ _ => ())))
  rw [← List.foldl_append] at l2
  have e3 : g3 = g2.markEdgesAsStale := by
    simp only [Graph.step, Res.ok.injEq, Prod.mk.injEq] at h5
    exact h5.1.symm
  subst e3
  have l3 := Loop.edges (E := E) Es hf h7
  have e5 : g4.removeAllStaleEdges = .ok g5 := by
    simp only [Graph.step] at h9
    obtain ⟨r, hr, h⟩ := bind_eq_ok h9
    cases h
    exact hr
  unfold Rd.updateCore bodyCore
  refine RT.skip (a := ()) (fun p => ?_) ?_
  · unfold meshLayer
    simp only [bind_apply, env, Res.bind_ok, hv.1]
    rfl
  refine RT.bind (RT.loadFactory hv W R) (RT.bind (RT.loadFactory hv V Q) (RT.bind (RT.dynArr l1) (RT.bind (RT.dynArr l2) ?_)))
  refine RT.skip (lift_ok (removals _ h3)) ?_
  refine RT.bind_last (RT.dynArr l3) ?_
  cases h10
  exact lift_ok e5

theorem RT.updateGraph (hv : F.Reads E) {W R : Registry NodeClass} {V Q : Registry EdgeClass}
    {order : List NodeId → List NodeId} {g g' : Graph} {outs : List Out} {A D : List (NodeId × NodeInfo)} {Es : List EdgeInfo}
    {mesh : Option Mesh}
    (ha : ∀ e ∈ A ++ D, e.2.attrs.Typed ∧ (factory W.names R).find? (W.typeId e.2.attrs.cls) = some e.2.attrs.cls)
    (hf : (factory V.names Q).find? (V.typeId .base) = some .base)
    (hrun : g.run (syncOps F (A ++ D) (order ((A ++ D).foldl (fun s e => s.erase e.1) (g.lookup.map (fun _ _ => ()))).keys) Es mesh) =
      .ok (g', outs)) : RT E (body F W V A D Es mesh) (updateGraph R Q order g) g' := by
  unfold syncOps at hrun
  obtain ⟨g1, o1, hrun, h1, h2⟩ := Graph.run_split hrun
  obtain ⟨g2, o2, _, h3, h4⟩ := Graph.run_split h2
  obtain ⟨g3, o3, _, h5, h6⟩ := Graph.run_cons h4
  obtain ⟨g4, o4, _, h7, h8⟩ := Graph.run_split h6
  obtain ⟨g5, o5, _, h9, h10⟩ := Graph.run_cons h8
  rw [List.map_append] at h1
  obtain ⟨g0, o6, _, h11, h12⟩ := Graph.run_split h1
  have l1 := Loop.nodes (E := E) hv A (fun e he => ha e (List.mem_append_left _ he)) h11 (g.lookup.map (fun _ _ => ()))
  have l2 := Loop.nodes (E := E) hv D (fun e he => ha e (List.mem_append_right _ he)) h12 (A.foldl (fun s e => s.erase e.1) (g.lookup.map (fun _ _ => ())))
  rw [← List.foldl_append] at l2
  have e3 : g3 = g2.markEdgesAsStale := by
    simp only [Graph.step, Res.ok.injEq, Prod.mk.injEq] at h5
    exact h5.1.symm
  subst e3
  have l3 := Loop.edges (E := E) Es hf h7
  have e5 : g4.removeAllStaleEdges = .ok g5 := by
    simp only [Graph.step] at h9
    obtain ⟨r, hr, h⟩ := bind_eq_ok h9
    cases h
    exact hr
  unfold Rd.updateGraph body
  refine RT.skip (a := ()) (fun p => ?_) ?_
  · unfold meshLayer
    simp only [bind_apply, env, Res.bind_ok, hv.1]
    rfl
  refine RT.bind (RT.loadFactory hv W R) (RT.bind (RT.loadFactory hv V Q) (RT.bind (RT.dynArr l1) (RT.bind (RT.dynArr l2) ?_)))
  refine RT.skip (lift_ok (removals _ h3)) ?_
  refine RT.bind (RT.dynArr l3) ?_
  refine RT.skip (lift_ok e5) ?_
  cases mesh with
  | none =>
    cases h10
    have : RT E (Wr.seq (Wr.bool false) Wr.nil) (meshPart g') g' := RT.bind (RT.checkIfTrue false) (RT.pure g')
    intro bs pre post hw hb
    exact this bs pre post (by rw [show Wr.bool false = .ok bs from hw]; simp [Wr.seq, Wr.nil]) hb
  | some m =>
    obtain ⟨g6, o7, o8, h13, h14⟩ := Graph.run_cons h10
    cases h14
    simp only [Graph.step, Res.ok.injEq, Prod.mk.injEq] at h13
    rw [← h13.1]
    unfold meshPart
    exact RT.bind (RT.checkIfTrue true) ((RT.mesh m).map _)

end Rd
end Verif
