import Verif.Lemmas.Lossy
/-! # Applying a message that was cut short: nodes, edges, the whole message -/

namespace Verif
namespace Upd
variable {E E' : Env} {I : Graph → Prop} {F : Fmt}

theorem Tr.parseNode (H : Rd.Ext E E') (hv : F.Reads E') {W : Registry NodeClass} {fac : OMap UInt8 NodeClass} {g g' : Graph}
    {st : OSet NodeId} {out : Out} (e : NodeId × NodeInfo) (ha : e.2.attrs.Typed) (hI : I g)
    (hf : fac.find? (W.typeId e.2.attrs.cls) = some e.2.attrs.cls) (hg : g.step (nodeOp F e) = .ok (g', out)) :
    Tr E E' I (Wr.nodeAs F W (some (Rd.recOf e))) (Upd.parseNode fac st) (st.erase e.1) g g' := by
  unfold Wr.nodeAs Upd.parseNode
  simp only [Rd.recOf]
  refine Tr.bind (Tr.rd (Rd.RT.checkArrLen 4 4) (Rd.Cut.checkArrLen H 4) hI) (Tr.bind (Tr.rd (Rd.RT.u64 _) (Rd.Cut.u64 H) hI)
    (Tr.bind (Tr.rd (Rd.RT.u64 _) (Rd.Cut.u64 H) hI) (Tr.bind (Tr.rd (Rd.RT.opt _ ?_) (Rd.Cut.opt H (Rd.Cut.stamp H) (by omega)) hI) ?_)))
  · intro t _
    refine ⟨Rd.RT.stamp t, ?_⟩
    intro bs h
    cases h
    exact ⟨Pack.i64, _, rfl, by decide⟩
  · have h1 := hv.nodeAttrs (W := W) e.1 e.2.attrs ha hf
    obtain ⟨b, h2⟩ : ∃ b, g.addOrUpdateNode e.2.key.layer e.1 (some (F.kept e.1 e.2.attrs)) e.2.stamp = .ok (g', b) := by
      obtain ⟨r, h3, h4⟩ := bind_eq_ok hg
      cases h4
      exact ⟨r.2, h3⟩
    refine Tr.last (Tr.rd h1 (Rd.Cut.nodeAttrs H) hI) (fun p => ?_)
    have h3 := act_ok (E := E) (m := Graph.addOrUpdateNodeT e.2.key.layer e.1 (some (F.kept e.1 e.2.attrs)) e.2.stamp) (by rw [Graph.res_addOrUpdateNodeT, h2]) p
    show ((Upd.act (Graph.addOrUpdateNodeT e.2.key.layer e.1 (some (F.kept e.1 e.2.attrs)) e.2.stamp) E p >>= fun x => _) g) = _
    rw [Act.bind_ok h3]
    rfl

theorem Tr.parseEdge (H : Rd.Ext E E') {W : Registry EdgeClass} {fac : OMap UInt8 EdgeClass} {g g' : Graph} {out : Out} (e : EdgeInfo) (hI : I g)
    (hf : fac.find? (W.typeId .base) = some .base) (hg : g.step (edgeOp e) = .ok (g', out)) :
    Tr E E' I (Wr.edge W (Spec.mkEdge e)) (Upd.parseEdge fac ()) () g g' := by
  unfold Wr.edge Upd.parseEdge
  simp only [Spec.mkEdge]
  refine Tr.bind (Tr.rd (Rd.RT.checkArrLen 3 3) (Rd.Cut.checkArrLen H 3) hI) (Tr.bind (Tr.rd (Rd.RT.u64 _) (Rd.Cut.u64 H) hI)
    (Tr.bind (Tr.rd (Rd.RT.u64 _) (Rd.Cut.u64 H) hI) ?_))
  have h1 := Rd.RT.edgeAttrs (E := E') (R := W) e.attrs hf
  obtain ⟨b, h2⟩ : ∃ b, g.addOrUpdateEdge e.src e.tgt (some e.attrs) = .ok (g', b) := by
    obtain ⟨r, h3, h4⟩ := bind_eq_ok hg
    cases h4
    exact ⟨r.2, h3⟩
  refine Tr.last (Tr.rd h1 (Rd.Cut.edgeAttrs H) hI) (fun p => ?_)
  have h3 := act_ok (E := E) (m := Graph.addOrUpdateEdgeT e.src e.tgt (some e.attrs)) (by rw [Graph.res_addOrUpdateEdgeT, h2]) p
  show ((Upd.act (Graph.addOrUpdateEdgeT e.src e.tgt (some e.attrs)) E p >>= fun x => _) g) = _
  rw [Act.bind_ok h3]
  rfl

theorem LoopT.nodes (H : Rd.Ext E E') (hv : F.Reads E') {W : Registry NodeClass} {fac : OMap UInt8 NodeClass}
    (N : List (NodeId × NodeInfo)) (ha : ∀ e ∈ N, e.2.attrs.Typed ∧ fac.find? (W.typeId e.2.attrs.cls) = some e.2.attrs.cls) {g g' : Graph}
    {outs : List Out} (hg : g.run (N.map (nodeOp F)) = .ok (g', outs)) (hI : Along I g (N.map (nodeOp F))) (st : OSet NodeId) :
    LoopT E E' I (Wr.nodeAs F W) (Upd.parseNode fac) st g (N.map (fun e => some (Rd.recOf e))) (N.foldl (fun s e => s.erase e.1) st) g' := by
  induction N generalizing g st outs with
  | nil => cases hg; exact .nil _ _ hI.here
  | cons e N ih =>
    obtain ⟨g1, o1, o2, h1, h2⟩ := Graph.run_cons hg
    obtain ⟨h3, h4⟩ := ha e List.mem_cons_self
    exact .cons hI.here (Tr.parseNode H hv e h3 hI.here h4 h1) Rd.NotHead.arr (ih (fun x hx => ha x (List.mem_cons_of_mem _ hx)) h2 (hI.cons h1) _)

theorem LoopT.edges (H : Rd.Ext E E') {W : Registry EdgeClass} {fac : OMap UInt8 EdgeClass} (Es : List EdgeInfo)
    (hf : fac.find? (W.typeId .base) = some .base) {g g' : Graph}
    {outs : List Out} (hg : g.run (Es.map edgeOp) = .ok (g', outs)) (hI : Along I g (Es.map edgeOp)) :
    LoopT E E' I (Wr.edge W) (Upd.parseEdge fac) () g (Es.map Spec.mkEdge) () g' := by
  induction Es generalizing g outs with
  | nil => cases hg; exact .nil _ _ hI.here
  | cons e Es ih =>
    obtain ⟨g1, o1, o2, h1, h2⟩ := Graph.run_cons hg
    exact .cons hI.here (Tr.parseEdge H e hI.here hf h1) Rd.NotHead.arr (ih h2 (hI.cons h1))

/-- The graph after a message that may have been cut short. -/
def Left (I : Graph → Prop) : Thru Graph (Unit × Nat) → Prop
  | .ok _ g => I g
  | .throw e g => e ≠ .abort ∧ I g
  | .ub => False

theorem Left.of_half {q : Nat} {G' : Graph} {t : Thru Graph (Unit × Nat)} (h : Half E I q () G' t) (hI : I G') : Left I t := by
  cases t with
  | ok x g => obtain ⟨_, rfl, _⟩ := h; exact hI
  | throw e g => exact h
  | ub => exact h

theorem Left.bind {q : Nat} {α : Type} {m : Act Graph (α × Nat)} {k : α × Nat → Act Graph (Unit × Nat)} {a : α} {G G1 : Graph}
    (h : Half E I q a G1 (m G)) (h' : q ≤ E.buf.length → Left I (k (a, q) G1)) : Left I ((m >>= k) G) := by
  cases e : m G with
  | ok x g =>
    rw [e] at h
    obtain ⟨e1, e2, e3⟩ := h
    subst e1 e2
    rw [Act.bind_ok e]
    exact h' e3
  | throw x g => rw [e] at h; rw [Act.bind_throw e]; exact h
  | ub => rw [e] at h; exact h.elim

/-- The part of the message before the mesh. -/
def core (R : Registry NodeClass) (Q : Registry EdgeClass) (order : List NodeId → List NodeId) : Upd Unit := do
  rd Rd.meshLayer
  let nf ← rd (Rd.loadFactory R)
  let ef ← rd (Rd.loadFactory Q)
  let g ← act Act.get
  let stale ← dynArr (parseNode nf) (g.lookup.map (fun _ _ => ()))
  let stale ← dynArr (parseNode nf) stale
  act (Act.each (fun n => Graph.removeNodeT n >>= fun _ => (Pure.pure () : Act Graph Unit)) (order stale.keys))
  act (Graph.modify (fun g => g.markEdgesAsStale))
  dynArr (parseEdge ef) ()
  act Graph.removeAllStaleEdgesT

theorem act_assoc {S A B C : Type} (m : Act S A) (k : A → Act S B) (l : B → Act S C) : ((m >>= k) >>= l) = (m >>= fun a => k a >>= l) := by
  funext s
  show Act.bind (Act.bind m k) l s = Act.bind m (fun a => Act.bind (k a) l) s
  unfold Act.bind
  cases m s <;> rfl

theorem upd_assoc {A B C : Type} (m : Upd A) (k : A → Upd B) (l : B → Upd C) : ((m >>= k) >>= l) = (m >>= fun a => k a >>= l) := by
  funext E p
  exact act_assoc (m E p) (fun x => k x.1 E x.2) (fun x => l x.1 E x.2)

theorem updateGraph_eq (R : Registry NodeClass) (Q : Registry EdgeClass) (order : List NodeId → List NodeId) :
    updateGraph R Q order = (core R Q order >>= fun _ => meshPart) := by
  unfold updateGraph core
  simp only [upd_assoc]

theorem Tr.core (H : Rd.Ext E E') (hv : F.Reads E') {W R : Registry NodeClass} {V Q : Registry EdgeClass}
    {order : List NodeId → List NodeId} {g g' : Graph} {outs : List Out} {A D : List (NodeId × NodeInfo)} {Es : List EdgeInfo}
    (ha : ∀ e ∈ A ++ D, e.2.attrs.Typed ∧ (factory W.names R).find? (W.typeId e.2.attrs.cls) = some e.2.attrs.cls)
    (hf : (factory V.names Q).find? (V.typeId .base) = some .base)
    (hrun : g.run (syncOps F (A ++ D) (order ((A ++ D).foldl (fun s e => s.erase e.1) (g.lookup.map (fun _ _ => ()))).keys) Es none) = .ok (g', outs))
    (hI : Along I g (syncOps F (A ++ D) (order ((A ++ D).foldl (fun s e => s.erase e.1) (g.lookup.map (fun _ _ => ()))).keys) Es none)) :
    Tr E E' I (Rd.bodyCore F W V A D Es) (Upd.core R Q order) () g g' := by
  unfold syncOps at hrun hI
  obtain ⟨g1, o1, hrun, h1, h2⟩ := Graph.run_split hrun
  obtain ⟨g2, o2, _, h3, h4⟩ := Graph.run_split h2
  obtain ⟨g3, o3, _, h5, h6⟩ := Graph.run_cons h4
  obtain ⟨g4, o4, _, h7, h8⟩ := Graph.run_split h6
  obtain ⟨g5, o5, _, h9, h10⟩ := Graph.run_cons h8
  have i1 := hI.left
  have i2 := hI.right h1
  have i3 := i2.right h3
  have i4 := (i3.cons h5).left
  rw [List.map_append] at h1 i1
  obtain ⟨g0, o6, _, h11, h12⟩ := Graph.run_split h1
  have l1 := LoopT.nodes (I := I) H hv A (fun e he => ha e (List.mem_append_left _ he)) h11 i1.left (g.lookup.map (fun _ _ => ()))
  have l2 := LoopT.nodes (I := I) H hv D (fun e he => ha e (List.mem_append_right _ he)) h12 (i1.right h11) (A.foldl (fun s e => s.erase e.1) (g.lookup.map (fun _ _ => ())))
  rw [← List.foldl_append] at l2
  have e3 : g3 = g2.markEdgesAsStale := by
    simp only [Graph.step, Res.ok.injEq, Prod.mk.injEq] at h5
    exact h5.1.symm
  subst e3
  have l3 := LoopT.edges (I := I) H Es hf h7 i4
  have e5 : g4.removeAllStaleEdges = .ok g5 := by
    simp only [Graph.step] at h9
    obtain ⟨r, hr, h⟩ := bind_eq_ok h9
    cases h
    exact hr
  unfold Upd.core Rd.bodyCore
  refine Tr.skip (a := ()) (G1 := g) (fun p => ?_) ?_
  · unfold Upd.rd Act.read Rd.meshLayer
    simp only [Rd.bind_apply, Rd.env, Res.bind_ok, show E.version.lt ⟨1, 0, 2⟩ = false from H.version ▸ hv.1]
    rfl
  refine Tr.bind (Tr.rd (Rd.RT.loadFactory hv W R) (Rd.Cut.loadFactory H R) hI.here) (Tr.bind (Tr.rd (Rd.RT.loadFactory hv V Q) (Rd.Cut.loadFactory H Q) hI.here) ?_)
  refine Tr.skip (a := g) (G1 := g) (fun p => rfl) ?_
  refine Tr.bind (Tr.dynArr H l1) (Tr.bind (Tr.dynArr H l2) ?_)
  refine Tr.skip (a := ()) (act_ok (by rw [Upd.same_drop, Rd.removals _ h3]; rfl)) ?_
  refine Tr.skip (a := ()) (act_ok rfl) ?_
  refine Tr.last (Tr.dynArr H l3) (fun p => ?_)
  cases h10
  exact act_ok (by rw [Graph.res_removeAllStaleEdgesT, e5]; rfl) p

theorem Left.updateGraph (H : Rd.Ext E E') (hv : F.Reads E') {W R : Registry NodeClass} {V Q : Registry EdgeClass}
    {order : List NodeId → List NodeId} {g g' : Graph} {outs : List Out} {A D : List (NodeId × NodeInfo)} {Es : List EdgeInfo} {mesh : Option Mesh}
    (ha : ∀ e ∈ A ++ D, e.2.attrs.Typed ∧ (factory W.names R).find? (W.typeId e.2.attrs.cls) = some e.2.attrs.cls)
    (hf : (factory V.names Q).find? (V.typeId .base) = some .base)
    (hrun : g.run (syncOps F (A ++ D) (order ((A ++ D).foldl (fun s e => s.erase e.1) (g.lookup.map (fun _ _ => ()))).keys) Es mesh) = .ok (g', outs))
    (hI : Along I g (syncOps F (A ++ D) (order ((A ++ D).foldl (fun s e => s.erase e.1) (g.lookup.map (fun _ _ => ()))).keys) Es mesh))
    {bs pre post : List UInt8} (hw : Rd.body F W V A D Es mesh = .ok bs) (hb : E'.buf = pre ++ bs ++ post) (hp : pre.length ≤ E.buf.length) :
    Left I (Upd.updateGraph R Q order E pre.length g) := by
  have hsplit : ∀ rm, syncOps F (A ++ D) rm Es mesh = syncOps F (A ++ D) rm Es none ++ meshOps mesh := by
    intro rm
    simp [syncOps, meshOps]
  rw [hsplit] at hrun hI
  obtain ⟨g1, o1, o2, h1, h2⟩ := Graph.run_split hrun
  have c := Tr.core H hv ha hf h1 hI.left
  rw [Rd.body_eq] at hw
  obtain ⟨b1, b2, w1, w2, rfl⟩ := Rd.seq_ok hw
  rw [updateGraph_eq]
  have c1 := c b1 pre (b2 ++ post) w1 (by simpa using hb) hp
  refine Left.bind (m := Upd.core R Q order E pre.length) c1 (fun hq => ?_)
  show Left I (meshPart E (pre.length + b1.length) g1)
  have i1 := hI.right h1
  rcases Nat.lt_or_ge (pre.length + b1.length) E.buf.length with hlt | hge
  · have hc := Rd.checkIfTrue_inside H (p := pre.length + b1.length) hlt
    unfold meshPart
    cases mesh with
    | none =>
      have hf := Rd.RT.checkIfTrue (E := E') false b2 (pre ++ b1) post w2 (by simpa using hb)
      rw [List.length_append] at hf
      rw [hf] at hc
      refine Left.bind (E := E) (q := pre.length + b1.length + b2.length) (a := false) (G1 := g1) (m := Upd.rd Rd.checkIfTrue E (pre.length + b1.length)) ?_ (fun _ => i1.here)
      unfold Upd.rd Act.read
      rw [hc]
      refine ⟨rfl, rfl, ?_⟩
      cases w2
      exact hlt
    | some m =>
      obtain ⟨t1, t2, t3, t4, rfl⟩ := Rd.seq_ok w2
      have hf := Rd.RT.checkIfTrue (E := E') true t1 (pre ++ b1) (t2 ++ post) t3 (by simpa using hb)
      rw [List.length_append] at hf
      rw [hf] at hc
      refine Left.bind (E := E) (q := pre.length + b1.length + t1.length) (a := true) (G1 := g1) (m := Upd.rd Rd.checkIfTrue E (pre.length + b1.length)) ?_ (fun hq2 => ?_)
      · unfold Upd.rd Act.read
        rw [hc]
        refine ⟨rfl, rfl, ?_⟩
        cases t3
        exact hlt
      · have hm := (Tr.rd (I := I) (G := g1) (Rd.RT.mesh (E := E') m) (Rd.Cut.mesh H) i1.here) t2 (pre ++ b1 ++ t1) post t4 (by simpa using hb) (by simpa [Nat.add_assoc] using hq2)
        simp only [List.length_append] at hm
        refine Left.bind (m := Upd.rd Rd.mesh E (pre.length + b1.length + t1.length)) hm (fun _ => ?_)
        exact i1.last (G1 := g1.setMesh (some m)) (o := [.unit]) rfl
  · unfold meshPart
    refine Left.bind (E := E) (q := pre.length + b1.length) (a := false) (G1 := g1) (m := Upd.rd Rd.checkIfTrue E (pre.length + b1.length)) ?_ (fun _ => i1.here)
    unfold Upd.rd Act.read
    rw [Rd.checkIfTrue_end (by omega)]
    exact ⟨rfl, rfl, hq⟩
end Upd
end Verif
