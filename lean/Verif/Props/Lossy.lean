import Verif.Lemmas.Lossy4
import Verif.Props.Receive
/-!
# C69: a lossy line

A sender sends one version of its graph after another; of every message only a beginning may arrive. The receiver applies what it gets to its
graph in place, catches every exception and goes on.
-/

namespace Verif

/-- **C69.** Whatever part of each message arrives, the receiver keeps running. Its graph is one that a history of correct calls would have
produced; every node, edge and mesh in it comes from the graph it started with or from one of the graphs that were sent. And as soon as one
message arrives as a whole, its graph mirrors the graph that was sent, whatever was lost before. -/
theorem C69_lossy_line {P : Prog} {ids : List LayerId} {ops : List Op} {h : Graph} (ho : ∀ l, (P.order l).Perm l) (hh : Reached ids ops h) (L : List Packet)
    (hL : ∀ p ∈ L, p.Sent P) (hv : Versions h (L.map Packet.graph)) :
    ∃ h' ops', h.serve P FileHeader.current.version (L.map Packet.event) = .up h' ∧ Reached ids ops' h' ∧ h'.MadeOf h (L.map Packet.graph) ∧
      ∀ q p, L = q ++ [p] → p.message.1.length ≤ p.arrived → h'.Mirrors p.graph := by
  have hre : ∀ x ∈ h :: L.map Packet.graph, ∃ i o, Reached i o x := by
    intro x hx
    rcases List.mem_cons.1 hx with rfl | hx
    · exact ⟨_, _, hh⟩
    · obtain ⟨p, hp, rfl⟩ := List.mem_map.1 hx
      exact (hL p hp).reached
  have one : ∀ (c : Graph) (o : List Op) (p : Packet), p ∈ L → Reached ids o c → c.MadeOf h (L.map Packet.graph) →
      ∃ c' o', c.serve1 P FileHeader.current.version p.event = .up c' ∧ Reached ids o' c' ∧ c'.MadeOf h (L.map Packet.graph) ∧
        (p.message.1.length ≤ p.arrived → c'.Mirrors p.graph) := by
    intro c o p hp hc hm
    obtain ⟨W, V, incl, hu, hw⟩ := (hL p hp).written
    have hg : p.graph ∈ L.map Packet.graph := List.mem_map_of_mem hp
    have hleft := lossyMessage hv hre hc hm hg (hL p hp).storable hu ho (incl := incl) (E := P.env (p.message.cut p.arrived).1 (p.message.cut p.arrived).2 FileHeader.current.version)
      (E' := P.env p.message.1 p.message.2 FileHeader.current.version) rfl
      ⟨⟨p.message.1.drop p.arrived, (List.take_append_drop _ _).symm⟩, rfl, rfl, rfl, rfl⟩ hw
    have hfull : p.message.1.length ≤ p.arrived → ∃ c', Upd.updateGraphFrom P.R P.Q P.order (P.env (p.message.cut p.arrived).1 (p.message.cut p.arrived).2 FileHeader.current.version) 0 c
        = .ok ((), p.message.1.length) c' ∧ c'.Mirrors p.graph := by
      intro hk
      have hcut : (P.env (p.message.cut p.arrived).1 (p.message.cut p.arrived).2 FileHeader.current.version).buf = [] ++ p.message.1 ++ [] := by
        simp only [Prog.env, Message.cut, List.nil_append, List.append_nil]
        exact List.take_of_length_le hk
      obtain ⟨_, _, hrg⟩ := (hL p hp).reached
      obtain ⟨rc, wc⟩ := hc.rep
      obtain ⟨c', _, e, _, hmir, _⟩ := C26_receiver_mirrors_sender hrg hc (hL p hp).storable
        (hv.accepts hre rc wc hm (List.mem_cons_of_mem _ hg)) hu ho (includeMesh := incl) rfl hw hcut
      have hs := C68_same_reader P.R P.Q P.order (P.env (p.message.cut p.arrived).1 (p.message.cut p.arrived).2 FileHeader.current.version) 0 c
      rw [show Rd.updateGraphFrom P.R P.Q P.order c _ 0 = _ from e] at hs
      cases hx : Upd.updateGraphFrom P.R P.Q P.order (P.env (p.message.cut p.arrived).1 (p.message.cut p.arrived).2 FileHeader.current.version) 0 c with
      | ok x g' =>
        rw [hx] at hs
        obtain ⟨u, q⟩ := x
        simp only [Res.ok.injEq, Prod.mk.injEq] at hs
        obtain ⟨rfl, rfl⟩ := hs
        exact ⟨g', by simp, hmir⟩
      | throw x g' => rw [hx] at hs; cases hs
      | ub => rw [hx] at hs; cases hs
    simp only [Packet.event, Graph.serve1]
    cases hx : Upd.updateGraphFrom P.R P.Q P.order (P.env (p.message.cut p.arrived).1 (p.message.cut p.arrived).2 FileHeader.current.version) 0 c with
    | ok x g' =>
      rw [hx] at hleft
      obtain ⟨⟨o', h1⟩, h2⟩ := hleft
      refine ⟨g', o', rfl, h1, h2, fun hk => ?_⟩
      obtain ⟨c', e, hmir⟩ := hfull hk
      rw [hx] at e
      cases e
      exact hmir
    | throw x g' =>
      rw [hx] at hleft
      obtain ⟨h0, ⟨o', h1⟩, h2⟩ := hleft
      refine ⟨g', o', ?_, h1, h2, fun hk => ?_⟩
      · cases x <;> first | rfl | exact absurd rfl h0
      · obtain ⟨c', e, -⟩ := hfull hk
        rw [hx] at e
        cases e
    | ub => rw [hx] at hleft; exact hleft.elim
  have all : ∀ (K : List Packet), (∀ p ∈ K, p ∈ L) → ∀ (c : Graph) (o : List Op), Reached ids o c → c.MadeOf h (L.map Packet.graph) →
      ∃ c' o', c.serve P FileHeader.current.version (K.map Packet.event) = .up c' ∧ Reached ids o' c' ∧ c'.MadeOf h (L.map Packet.graph) ∧
        ∀ q p, K = q ++ [p] → p.message.1.length ≤ p.arrived → c'.Mirrors p.graph := by
    intro K
    induction K with
    | nil => exact fun _ c o hc hm => ⟨c, o, rfl, hc, hm, fun q p e => absurd e (by simp)⟩
    | cons p K ih =>
      intro hK c o hc hm
      obtain ⟨c1, o1, e1, r1, m1, f1⟩ := one c o p (hK p List.mem_cons_self) hc hm
      obtain ⟨c2, o2, e2, r2, m2, f2⟩ := ih (fun x hx => hK x (List.mem_cons_of_mem _ hx)) c1 o1 r1 m1
      refine ⟨c2, o2, ?_, r2, m2, ?_⟩
      · rw [List.map_cons, Graph.serve, e1]
        exact e2
      · intro q x hq
        cases q with
        | nil =>
          simp only [List.nil_append, List.cons.injEq] at hq
          obtain ⟨rfl, rfl⟩ := hq
          cases e2
          exact f1
        | cons y q =>
          simp only [List.cons_append, List.cons.injEq] at hq
          exact f2 q x hq.2
  obtain ⟨rh, wh⟩ := hh.rep
  refine all L (fun p hp => hp) h ops hh ⟨fun n j hj => .inl ⟨rfl, hj⟩, fun a b e he => .inl ⟨h, List.mem_cons_self, rfl, e, he, rfl⟩, .inr ⟨h, List.mem_cons_self, rfl⟩⟩

namespace Lossy
open Sample Receive

/-- The checks of `Graph.Accepts`, on the abstract graphs. -/
def acceptsCheck (τ σ : Spec) : Bool :=
  (σ.nodes.toList.all fun e => τ.nodes.toList.all fun f => (e.1 != f.1 || (f.2.key == e.2.key && f.2.stamp == e.2.stamp)) &&
    (!e.2.key.dynamic || f.2.key != e.2.key || f.2.stamp != e.2.stamp || f.1 == e.1)) &&
  τ.edges.toList.all fun e => match τ.key? e.1.k1, τ.key? e.1.k2 with | some a, some b => a.layer != b.layer || a == b | _, _ => true

theorem accepts_of {ids ids' : List LayerId} {ops ops' : List Op} {g h : Graph} (hg : Reached ids ops g) (hh : Reached ids' ops' h)
    (hc : acceptsCheck ((Spec.init ids').after ops') ((Spec.init ids).after ops) = true) : h.Accepts g := by
  obtain ⟨rg, wg⟩ := hg.rep
  obtain ⟨rh, wh⟩ := hh.rep
  simp only [acceptsCheck, Bool.and_eq_true, List.all_eq_true] at hc
  obtain ⟨c1, c2⟩ := hc
  refine ⟨?_, ?_, ?_⟩
  · intro n i j hi hj
    rw [rg.nodeObs wg] at hi
    rw [rh.nodeObs wh] at hj
    have := (c1 (n, i) (OMap.mem_toList.2 hi) (n, j) (OMap.mem_toList.2 hj)).1
    simpa using this
  · intro n m i j hi hj hd hk hs
    rw [rg.nodeObs wg] at hi
    rw [rh.nodeObs wh] at hj
    have := (c1 (n, i) (OMap.mem_toList.2 hi) (m, j) (OMap.mem_toList.2 hj)).2
    simpa [hd, hk, hs] using this
  · intro n m kn km h1 h2 h3 hl
    rw [rh.hasEdge wh] at h1
    rw [rh.getLayerForNode] at h2 h3
    obtain ⟨e, he⟩ := OMap.contains_eq_true.1 (show ((Spec.init ids').after ops').edges.contains (EdgeKey.of n m) = true from Res.ok.inj h1)
    have := c2 _ (OMap.mem_toList.2 he)
    rcases EdgeKey.of_eq n m with ⟨h5, _⟩ | ⟨h5, _⟩ <;> rw [h5] at this <;> simp only [h2, h3] at this
    · have t : (kn.layer != km.layer || kn == km) = true := this
      rw [hl] at t
      simp only [bne_self_eq_false, Bool.false_or, beq_iff_eq] at t
      exact t.symm
    · have t : (km.layer != kn.layer || km == kn) = true := this
      rw [hl] at t
      simpa only [bne_self_eq_false, Bool.false_or, beq_iff_eq] using t

/-- The second version of the graph. -/
def ioOps2 : List Op := ioOps ++ [.removeNode 11, .emplaceNode 4 31 at0, .insertEdge 31 20 none, .emplaceDyn 2 pa 300 at0 true]

/-- A message for the graph after a history, of which `k` bytes arrive. -/
def packet (ops : List Op) (k : Nat) : Packet := ⟨after ids ops, sent stdNodes stdEdges (after ids ops), k⟩

/-- The first version cut within its nodes, the second within its edges, the first within its edges, the second as a whole. -/
def packets : List Packet := [packet ioOps 700, packet ioOps2 900, packet ioOps 900, packet ioOps2 2000]

theorem sent_eq {W : Registry NodeClass} {V : Registry EdgeClass} {g : Graph}
    (h : (match g.write W V true with | .ok bs => decide (bs.length < 2 ^ 63) | _ => false) = true) : g.write W V true = .ok (sent W V g).1 := by
  unfold sent
  cases hw : g.write W V true with
  | ok bs =>
    rw [hw] at h
    simp only [dif_pos (of_decide_eq_true h)]
  | throw e => rw [hw] at h; cases h
  | ub => rw [hw] at h; cases h

theorem sent_of {ops : List Op} {k : Nat} (h1 : Op.okAll (Spec.init ids) ops = true)
    (h2 : (((Spec.init ids).after ops).nodes.toList.all fun e => (e.2.key.dynamic || e.2.stamp.isNone) && decide (e.2.key.layer ∈ (after ids ops).layerIds) &&
      (decide (e.2.attrs = at0) || decide (e.2.attrs = at1) || decide (e.2.attrs = at2))) = true)
    (h3 : ((after ids ops).dynList.all (fun d => decide (d.nodes.length < 2 ^ 32) && !d.nodes.contains none)) = true)
    (h4 : (match (after ids ops).write stdNodes stdEdges true with | .ok bs => decide (bs.length < 2 ^ 63) | _ => false) = true) :
    (packet ops k).Sent Safety.checked := by
  have hr : Reached ids ops (after ids ops) := after_reached (by decide) h1
  rw [List.all_eq_true] at h2
  have key : ∀ n i, (after ids ops).nodeObs n = some i → (i.key.dynamic = true ∨ i.stamp = none) ∧ i.key.layer ∈ (after ids ops).layerIds ∧
      (i.attrs = at0 ∨ i.attrs = at1 ∨ i.attrs = at2) := by
    refine forall_nodes hr (fun e he => ?_)
    have := h2 e he
    simp only [Bool.and_eq_true, Bool.or_eq_true, decide_eq_true_eq, Option.isNone_iff_eq_none, or_assoc] at this
    exact ⟨this.1.1, this.1.2, this.2⟩
  refine ⟨⟨_, _, hr⟩, ⟨?_, fun n i hi => (key n i hi).2.1, ?_, ?_⟩, stdNodes, stdEdges, true, ⟨stdNodes_once, by unfold Registry.Once; decide +kernel, by decide, by decide, ?_,
    ⟨Str.lit "EdgeAttributes", by decide +kernel, by decide +kernel⟩⟩, sent_eq h4⟩
  · intro n i hi hd
    rcases (key n i hi).1 with h | h
    · rw [h] at hd; cases hd
    · exact h
  · intro d hd
    have := List.all_eq_true.1 h3 d hd
    simpa using this
  · intro n i hi
    rcases (key n i hi).2.2 with h | h | h <;> rw [h]
    · trivial
    · trivial
    · refine ⟨?_, 0, 0, ?_⟩ <;> (unfold Matrix.Sized; decide)
  · intro n i hi
    have hc : i.attrs.cls = .base ∨ i.attrs.cls = .semantic := by
      rcases (key n i hi).2.2 with h | h | h <;> rw [h]
      · exact .inl rfl
      · exact .inl rfl
      · exact .inr rfl
    rcases hc with h | h <;> rw [h]
    · exact ⟨Str.lit "NodeAttributes", by decide +kernel, by decide +kernel⟩
    · exact ⟨Str.lit "SemanticNodeAttributes", by decide +kernel, by decide +kernel⟩

theorem sent1 (k : Nat) : (packet ioOps k).Sent Safety.checked := sent_of (by decide +kernel) (by decide +kernel) (by decide +kernel) (by decide +kernel)
theorem sent2 (k : Nat) : (packet ioOps2 k).Sent Safety.checked := sent_of (by decide +kernel) (by decide +kernel) (by decide +kernel) (by decide +kernel)

theorem reached2 : Reached ids ioOps2 (after ids ioOps2) := after_reached (by decide) (by decide +kernel)

theorem versions : Versions (after ids ioOps') (packets.map Packet.graph) := by
  have hm : ∀ x ∈ after ids ioOps' :: packets.map Packet.graph, ∃ o ∈ [ioOps', ioOps, ioOps2], x = after ids o := by
    intro x hx
    simp only [packets, packet, List.map_cons, List.map_nil, List.mem_cons, List.not_mem_nil, or_false] at hx
    rcases hx with h | h | h | h | h
    · exact ⟨ioOps', by simp, h⟩
    · exact ⟨ioOps, by simp, h⟩
    · exact ⟨ioOps2, by simp, h⟩
    · exact ⟨ioOps, by simp, h⟩
    · exact ⟨ioOps2, by simp, h⟩
  intro x hx y hy _
  obtain ⟨o1, m1, rfl⟩ := hm x hx
  obtain ⟨o2, m2, rfl⟩ := hm y hy
  have hr : ∀ o ∈ [ioOps', ioOps, ioOps2], Reached ids o (after ids o) := by
    intro o ho
    simp only [List.mem_cons, List.not_mem_nil, or_false] at ho
    rcases ho with rfl | rfl | rfl
    · exact ioReached'
    · exact ioReached
    · exact reached2
  refine accepts_of (hr o2 m2) (hr o1 m1) ?_
  have : ([ioOps', ioOps, ioOps2].all fun o1 => [ioOps', ioOps, ioOps2].all fun o2 => acceptsCheck ((Spec.init ids).after o1) ((Spec.init ids).after o2)) = true := by
    decide +kernel
  exact List.all_eq_true.1 (List.all_eq_true.1 this o1 m1) o2 m2

/-- The hypotheses are met by a receiver with other nodes and four messages, three of them cut. -/
example : Reached ids ioOps' (after ids ioOps') ∧ (∀ l, (Safety.checked.order l).Perm l) ∧ (∀ p ∈ packets, p.Sent Safety.checked) ∧
    Versions (after ids ioOps') (packets.map Packet.graph) ∧ (packets.map fun p => decide (p.message.1.length ≤ p.arrived)) = [false, false, false, true] := by
  refine ⟨ioReached', fun l => List.Perm.refl _, ?_, versions, by decide +kernel⟩
  intro p hp
  simp only [packets, List.mem_cons, List.not_mem_nil, or_false] at hp
  rcases hp with rfl | rfl | rfl | rfl
  · exact sent1 _
  · exact sent2 _
  · exact sent1 _
  · exact sent2 _

/-- The number of edges of a receiver that is up. -/
def edgesOf (r : Running) : Nat := match r with | .up g => g.numEdges | _ => 0
end Lossy

open Sample Receive Lossy in
/-- **C69, in between.** Until a message arrives as a whole, the graph can be one that was never sent: a message cut within its nodes has added
a node and has removed none; one that was cut within its edges has removed the nodes, but not the edges, that are not in it, and has added
only some of its own. -/
theorem C69_between_versions : ∃ (h : Graph) (p q : Packet) (old new : NodeId), (∃ ops, Reached ids ops h) ∧ p.Sent Safety.checked ∧ q.Sent Safety.checked ∧ Versions h [p.graph, q.graph] ∧
    p.graph = q.graph ∧ h.hasNode old = true ∧ p.graph.hasNode old = false ∧ h.hasNode new = false ∧ p.graph.hasNode new = true ∧
    hasNodes (h.serve Safety.checked FileHeader.current.version [p.event]) [old, new] = true ∧
    hasNodes (h.serve Safety.checked FileHeader.current.version [q.event]) [new] = true ∧ hasNodes (h.serve Safety.checked FileHeader.current.version [q.event]) [old] = false ∧
    edgesOf (h.serve Safety.checked FileHeader.current.version [q.event]) < q.graph.numEdges := by
  refine ⟨after ids ioOps', packet ioOps 700, packet ioOps 900, 30, 11, ⟨_, ioReached'⟩, sent1 _, sent1 _, ?_, rfl, by decide +kernel, by decide +kernel, by decide +kernel,
    by decide +kernel, by decide +kernel, by decide +kernel, by decide +kernel, by decide +kernel⟩
  intro x hx y hy
  refine versions x ?_ y ?_ <;> simp only [packets, packet, List.map_cons, List.map_nil, List.mem_cons, List.not_mem_nil, or_false] at hx hy ⊢
  · rcases hx with h | h | h <;> simp [h]
  · rcases hy with h | h | h <;> simp [h]
end Verif
