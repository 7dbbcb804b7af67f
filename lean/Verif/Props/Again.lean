import Verif.Props.Canonical
/-! # C75: messages that are repeated, superseded or passed on -/

namespace Verif

section
variable {ids ids' ids2 : List LayerId} {ops ops' ops2 : List Op} {g h h1 h2 : Graph}

/-- A graph that mirrors `g` accepts the messages of `g`. -/
theorem Graph.Mirrors.accepts (hm : h.Mirrors g) (hg : Reached ids ops g) (hh : Reached ids' ops' h) (hx : ∀ n, g.CrossFree n) : h.Accepts g := by
  obtain ⟨rg, wg⟩ := hg.rep
  obtain ⟨rh, wh⟩ := hh.rep
  refine ⟨?_, ?_, ?_⟩
  · intro n i j hi hj
    rw [hm.nodes, hi] at hj
    cases hj
    exact ⟨rfl, rfl⟩
  · intro n m i j hi hj hd hk hs
    rw [hm.nodes] at hj
    obtain ⟨j', hj', rfl⟩ := Option.map_eq_some_iff.1 hj
    rw [rg.nodeObs wg] at hi hj'
    cases hkey : i.key with
    | static l => rw [hkey] at hd; cases hd
    | dyn l p => exact wg.stamps m n j' i l p hj' hi (by rw [← hkey]; exact hk) hkey hs
  · intro n m kn km he hn hm' hl
    have key : ∀ n, h.getLayerForNode n = g.getLayerForNode n := by
      intro n
      rw [rh.getLayerForNode, rg.getLayerForNode]
      have := hm.nodes n
      rw [rh.nodeObs wh, rg.nodeObs wg] at this
      unfold Spec.key?
      rw [this]
      cases ((Spec.init ids).after ops).nodes.find? n <;> rfl
    refine hx n m kn km ?_ (by rw [← key]; exact hn) (by rw [← key]; exact hm') hl
    rw [rh.hasEdge wh] at he
    rw [rg.hasEdge wg]
    have := hm.edges n m
    rw [rh.edgeObs wh, rg.edgeObs wg] at this
    have he := Res.ok.inj he
    unfold Spec.hasEdge at he ⊢
    unfold Spec.edge? at this
    rw [OMap.contains_eq_true] at he
    obtain ⟨e, he⟩ := he
    rw [he] at this
    have : ∃ e, ((Spec.init ids).after ops).edges.find? (EdgeKey.of n m) = some e := by
      cases hz : ((Spec.init ids).after ops).edges.find? (EdgeKey.of n m) with
      | none => rw [hz] at this; cases this
      | some e => exact ⟨e, rfl⟩
    rw [OMap.contains_eq_true.2 this]

/-- **C75.** Reading a message a second time changes nothing. -/
theorem C75_message_again (hg : Reached ids ops g) (hh : Reached ids' ops' h) (hs : g.Storable) (hx : ∀ n, g.CrossFree n)
    (ha : h.layerIds = g.layerIds → h.Accepts g) {W R' : Registry NodeClass} {V Q : Registry EdgeClass} (hu : g.Understood W R' V Q)
    {order : List NodeId → List NodeId} (ho : ∀ l, (order l).Perm l) {includeMesh : Bool} {bs pre post pre2 post2 : List UInt8} {E E2 : Env}
    (hv : E.version = FileHeader.current.version) (hv2 : E2.version = FileHeader.current.version) (hw : g.write W V includeMesh = .ok bs)
    (hb : E.buf = pre ++ bs ++ post) (hb2 : E2.buf = pre2 ++ bs ++ post2) :
    ∃ h' h'' ops1 ops2, Rd.updateGraphFrom R' Q order h E pre.length = .ok (h', pre.length + bs.length) ∧ Reached ids' ops1 h' ∧
      Rd.updateGraphFrom R' Q order h' E2 pre2.length = .ok (h'', pre2.length + bs.length) ∧ Reached ids' ops2 h'' ∧ h'.SameContent h'' := by
  obtain ⟨h', ops1, a1, a2, a3, a4, a5, a6⟩ := C26_receiver_mirrors_sender hg hh hs ha hu ho hv hw hb
  obtain ⟨h'', ops2, b1, b2, b3, b4, b5, b6⟩ := C26_receiver_mirrors_sender hg a2 hs (fun _ => a3.accepts hg a2 hx) hu ho hv2 hw hb2
  refine ⟨h', h'', ops1, ops2, a1, a2, b1, b2, ⟨by rw [a3.layerIds, b3.layerIds], fun n => by rw [a3.nodes, b3.nodes], ?_, ?_⟩⟩
  · intro a b
    have e1 := a3.edges a b
    have e2 := b3.edges a b
    cases hge : g.edgeObs a b with
    | none =>
      rw [hge] at e1 e2
      cases h1 : h'.edgeObs a b with
      | some e => rw [h1] at e1; cases e1
      | none =>
        cases h2 : h''.edgeObs a b with
        | some e => rw [h2] at e2; cases e2
        | none => rfl
    | some e =>
      rw [hge] at e1
      cases h1 : h'.edgeObs a b with
      | none => rw [h1] at e1; cases e1
      | some o =>
        rw [h1] at e1
        have : o.attrs = e.attrs := Option.some.inj e1
        rw [b5 a3.layerIds a b e o hge h1, ← this]
  · rw [b4, if_pos a3.layerIds, a4]
    unfold meshAfter
    cases (if includeMesh = true then g.mesh else none) <;> rfl

/-- **C75.** What receivers have after a message depends on the message only, not on what they had and read before, up to the orientation of
edges that they had already, and up to the mesh, if the message has none. -/
theorem C75_last_message_wins (hg : Reached ids ops g) (hh1 : Reached ids' ops' h1) (hh2 : Reached ids2 ops2 h2) (hs : g.Storable)
    (ha1 : h1.layerIds = g.layerIds → h1.Accepts g) (ha2 : h2.layerIds = g.layerIds → h2.Accepts g)
    {W R' : Registry NodeClass} {V Q : Registry EdgeClass} (hu : g.Understood W R' V Q)
    {order order2 : List NodeId → List NodeId} (ho : ∀ l, (order l).Perm l) (ho2 : ∀ l, (order2 l).Perm l) {includeMesh : Bool}
    {bs pre post pre2 post2 : List UInt8} {E E2 : Env}
    (hv : E.version = FileHeader.current.version) (hv2 : E2.version = FileHeader.current.version) (hw : g.write W V includeMesh = .ok bs)
    (hb : E.buf = pre ++ bs ++ post) (hb2 : E2.buf = pre2 ++ bs ++ post2) :
    ∃ r1 r2, Rd.updateGraphFrom R' Q order h1 E pre.length = .ok (r1, pre.length + bs.length) ∧
      Rd.updateGraphFrom R' Q order2 h2 E2 pre2.length = .ok (r2, pre2.length + bs.length) ∧
      r1.layerIds = r2.layerIds ∧ (∀ n, r1.nodeObs n = r2.nodeObs n) ∧ (∀ n, r1.adjObs n = r2.adjObs n) ∧
      (∀ a b, (r1.edgeObs a b).map EdgeInfo.attrs = (r2.edgeObs a b).map EdgeInfo.attrs) ∧
      (includeMesh = true → g.mesh ≠ none → r1.mesh = r2.mesh) := by
  obtain ⟨r1, _, a1, _, a3, a4, _, _⟩ := C26_receiver_mirrors_sender hg hh1 hs ha1 hu ho hv hw hb
  obtain ⟨r2, _, b1, _, b3, b4, _, _⟩ := C26_receiver_mirrors_sender hg hh2 hs ha2 hu ho2 hv2 hw hb2
  refine ⟨r1, r2, a1, b1, by rw [a3.layerIds, b3.layerIds], fun n => by rw [a3.nodes, b3.nodes], fun n => by rw [a3.adjacent, b3.adjacent],
    fun a b => by rw [a3.edges, b3.edges], ?_⟩
  rintro rfl hm
  rw [a4, b4, if_pos rfl]
  cases hg : g.mesh with
  | none => exact absurd hg hm
  | some m => rfl

/-- **C75.** A graph that reads its own message keeps its layers, its nodes, with the attributes that a file keeps, its edges, with their
orientation, and its mesh. -/
theorem C75_own_message (hg : Reached ids ops g) (hs : g.Storable) (hx : ∀ n, g.CrossFree n)
    {W R' : Registry NodeClass} {V Q : Registry EdgeClass} (hu : g.Understood W R' V Q)
    {order : List NodeId → List NodeId} (ho : ∀ l, (order l).Perm l) {includeMesh : Bool} {bs pre post : List UInt8} {E : Env}
    (hv : E.version = FileHeader.current.version) (hw : g.write W V includeMesh = .ok bs) (hb : E.buf = pre ++ bs ++ post) :
    ∃ g' ops1, Rd.updateGraphFrom R' Q order g E pre.length = .ok (g', pre.length + bs.length) ∧ Reached ids ops1 g' ∧
      g'.layerIds = g.layerIds ∧ (∀ n, g'.nodeObs n = (g.nodeObs n).map NodeInfo.kept) ∧ (∀ a b, g'.edgeObs a b = g.edgeObs a b) ∧
      (∀ n, g'.adjObs n = g.adjObs n) ∧ g'.mesh = g.mesh := by
  have hacc : g.Accepts g := by
    obtain ⟨rg, wg⟩ := hg.rep
    refine ⟨?_, ?_, hx⟩
    · intro n i j hi hj
      rw [hi] at hj
      cases hj
      exact ⟨rfl, rfl⟩
    · intro n m i j hi hj hd hk hs
      rw [rg.nodeObs wg] at hi hj
      cases hkey : i.key with
      | static l => rw [hkey] at hd; cases hd
      | dyn l p => exact wg.stamps m n j i l p hj hi (by rw [← hkey]; exact hk) hkey hs
  obtain ⟨g', ops1, a1, a2, a3, a4, a5, _⟩ := C26_receiver_mirrors_sender hg hg hs (fun _ => hacc) hu ho hv hw hb
  refine ⟨g', ops1, a1, a2, a3.layerIds, a3.nodes, ?_, a3.adjacent, ?_⟩
  · intro a b
    cases he : g.edgeObs a b with
    | some e => exact a5 rfl a b e e he he
    | none =>
      have := a3.edges a b
      rw [he] at this
      cases h1 : g'.edgeObs a b with
      | none => rfl
      | some x => rw [h1] at this; cases this
  · rw [a4, if_pos rfl]
    cases includeMesh with
    | false => rfl
    | true => unfold meshAfter; cases g.mesh <;> rfl

/-- **C75.** A receiver that passes on what it has makes the next one mirror the first sender. -/
theorem C75_relayed (hg : Reached ids ops g) (hh : Reached ids' ops' h) (hs : g.Storable) (ha : h.layerIds = g.layerIds → h.Accepts g)
    {W R' : Registry NodeClass} {V Q : Registry EdgeClass} (hu : g.Understood W R' V Q) {W2 : Registry NodeClass} {V2 : Registry EdgeClass}
    (hu2 : g.Understood W2 R' V2 Q)
    {order : List NodeId → List NodeId} (ho : ∀ l, (order l).Perm l) {includeMesh includeMesh2 : Bool} {bs pre post : List UInt8} {E : Env}
    (hv : E.version = FileHeader.current.version) (hw : g.write W V includeMesh = .ok bs) (hb : E.buf = pre ++ bs ++ post) :
    ∃ h' ops1, Rd.updateGraphFrom R' Q order h E pre.length = .ok (h', pre.length + bs.length) ∧ Reached ids' ops1 h' ∧ h'.Mirrors g ∧
      -- the next receiver, with the message that this one writes, if it can
      ∀ {h2 : Graph}, Reached ids2 ops2 h2 → (h2.layerIds = g.layerIds → h2.Accepts g) →
        ∀ {bs2 pre2 post2 : List UInt8} {E2 : Env}, E2.version = FileHeader.current.version → (∀ d ∈ h'.dynList, d.nodes.length < 2 ^ 32) →
          h'.write W2 V2 includeMesh2 = .ok bs2 → E2.buf = pre2 ++ bs2 ++ post2 →
          ∃ r ops3, Rd.updateGraphFrom R' Q order h2 E2 pre2.length = .ok (r, pre2.length + bs2.length) ∧ Reached ids2 ops3 r ∧ r.Mirrors g := by
  obtain ⟨h', ops1, a1, a2, a3, _⟩ := C26_receiver_mirrors_sender hg hh hs ha hu ho hv hw hb
  refine ⟨h', ops1, a1, a2, a3, ?_⟩
  intro h2 hh2 ha2 bs2 pre2 post2 E2 hv2 hlen hw2 hb2
  have kept : ∀ n i, h'.nodeObs n = some i → ∃ j, g.nodeObs n = some j ∧ i = j.kept := by
    intro n i hi
    rw [a3.nodes] at hi
    obtain ⟨j, hj, rfl⟩ := Option.map_eq_some_iff.1 hi
    exact ⟨j, hj, rfl⟩
  have typed : ∀ n i, h'.nodeObs n = some i → i.attrs.Typed := by
    intro n i hi
    obtain ⟨j, hj, rfl⟩ := kept n i hi
    have := hs.typed n j hj
    show j.attrs.kept.Typed
    cases hj : j.attrs <;> rw [hj] at this <;> exact this
  have cls : ∀ a : NodeAttrs, a.kept.cls = a.cls := by intro a; cases a <;> rfl
  have twice : ∀ a : NodeAttrs, a.kept.kept = a.kept := by intro a; cases a <;> rfl
  have hgap : ¬ h'.Gap := ((C73_binary_written a2 hlen typed W2 V2 includeMesh2).1 ⟨bs2, hw2⟩).2
  have hs' : h'.Storable := by
    refine ⟨?_, ?_, fun d hd => ⟨hlen d hd, fun hx => hgap ⟨d, hd, hx⟩⟩, typed⟩
    · intro n i hi
      obtain ⟨j, hj, rfl⟩ := kept n i hi
      exact hs.plain n j hj
    · intro n i hi
      obtain ⟨j, hj, rfl⟩ := kept n i hi
      rw [a3.layerIds]
      exact hs.layers n j hj
  have hu' : h'.Understood W2 R' V2 Q := by
    refine ⟨hu2.nodesOnce, hu2.edgesOnce, hu2.nodesFew, hu2.edgesFew, ?_, hu2.edges⟩
    intro n i hi
    obtain ⟨j, hj, rfl⟩ := kept n i hi
    obtain ⟨name, n1, n2⟩ := hu2.nodes n j hj
    exact ⟨name, by show (name, j.attrs.kept.cls) ∈ _; rw [cls]; exact n1, by show _ = some j.attrs.kept.cls; rw [cls]; exact n2⟩
  have hacc : h2.layerIds = h'.layerIds → h2.Accepts h' := by
    intro hl
    rw [a3.layerIds] at hl
    obtain ⟨c1, c2, c3⟩ := ha2 hl
    refine ⟨?_, ?_, c3⟩
    · intro n i j hi hj
      obtain ⟨k, hk, rfl⟩ := kept n i hi
      exact c1 n k j hk hj
    · intro n m i j hi hj
      obtain ⟨k, hk, rfl⟩ := kept n i hi
      exact c2 n m k j hk hj
  obtain ⟨r, ops3, b1, b2, b3, _⟩ := C26_receiver_mirrors_sender a2 hh2 hs' hacc hu' ho hv2 hw2 hb2
  refine ⟨r, ops3, b1, b2, ⟨by rw [b3.layerIds, a3.layerIds], fun n => ?_, fun a b => by rw [b3.edges, a3.edges], fun n => by rw [b3.adjacent, a3.adjacent]⟩⟩
  rw [b3.nodes, a3.nodes]
  cases g.nodeObs n with
  | none => rfl
  | some i =>
    show some (NodeInfo.kept (NodeInfo.kept i)) = some (NodeInfo.kept i)
    unfold NodeInfo.kept
    rw [twice]
end

/-! ## The hypotheses can be met -/

namespace Sample
theorem cross_free {ids : List LayerId} {ops : List Op} {g : Graph} (hg : Reached ids ops g)
    (key : ∀ e ∈ ((Spec.init ids).after ops).edges.toList, ∀ k1 ∈ ((Spec.init ids).after ops).key? e.1.k1,
      ∀ k2 ∈ ((Spec.init ids).after ops).key? e.1.k2, k1.layer = k2.layer → k1 = k2) (n : NodeId) : g.CrossFree n := by
  intro m kn km h1 h2 h3
  rw [hg.rep.1.hasEdge hg.rep.2] at h1
  rw [hg.rep.1.getLayerForNode] at h2 h3
  have h4 := Res.ok.inj h1
  obtain ⟨e, he⟩ := OMap.contains_eq_true.1 (show ((Spec.init ids).after ops).edges.contains (EdgeKey.of n m) = true from h4)
  have := key _ (OMap.mem_toList.2 he)
  intro hl
  rcases EdgeKey.of_eq n m with ⟨h5, _⟩ | ⟨h5, _⟩ <;> rw [h5] at this
  · exact (this kn h2 km h3 hl.symm).symm
  · exact this km h3 kn h2 hl
theorem ioCross : ∀ n, (after ids ioOps).CrossFree n := cross_free ioReached (by decide +kernel)
theorem ioAccepts : (after ids ioOps').Accepts (after ids ioOps) := by
  refine ⟨?_, ?_, cross_free ioReached' (by decide +kernel)⟩
  · intro n i j hi hj
    refine forall_nodes (P := fun n i => ∀ j ∈ (after ids ioOps').nodeObs n, j.key = i.key ∧ j.stamp = i.stamp) ioReached ?_ n i hi j hj
    decide +kernel
  · intro n m i j hi hj
    refine forall_nodes (P := fun m j => i.key.dynamic = true → j.key = i.key → j.stamp = i.stamp → m = n) ioReached' ?_ m j hj
    refine forall_nodes (P := fun n i => ∀ e ∈ ((Spec.init ids).after ioOps').nodes.toList,
      i.key.dynamic = true → e.2.key = i.key → e.2.stamp = i.stamp → e.1 = n) ioReached ?_ n i hi
    decide +kernel
/-- the message, and a buffer that holds it -/
theorem ioMessage : ∃ (bs : List UInt8) (E : Env), (after ids ioOps).write stdNodes stdEdges true = .ok bs ∧ E.version = FileHeader.current.version ∧
    E.buf = [] ++ bs ++ [] := by
  have h : (match (after ids ioOps).write stdNodes stdEdges true with | .ok bs => decide (bs.length < 2 ^ 63) | _ => false) = true := by decide +kernel
  cases hb : (after ids ioOps).write stdNodes stdEdges true with
  | ok bs =>
    rw [hb] at h
    exact ⟨bs, ⟨bs, by simpa using h, FileHeader.current.version, false, false, fun a _ => a⟩, rfl, rfl, by simp⟩
  | throw e => rw [hb] at h; cases h
  | ub => rw [hb] at h; cases h

/-- A receiver with a past reads the message of the sample graph twice. -/
example : ∃ (bs : List UInt8) (E : Env) (h' h'' : Graph), Rd.updateGraphFrom stdNodes stdEdges id (after ids ioOps') E 0 = .ok (h', 0 + bs.length) ∧
    Rd.updateGraphFrom stdNodes stdEdges id h' E 0 = .ok (h'', 0 + bs.length) ∧ h'.SameContent h'' := by
  obtain ⟨bs, E, h1, h2, h3⟩ := ioMessage
  obtain ⟨h', h'', _, _, e1, _, e2, _, e3⟩ := C75_message_again ioReached ioReached' ioStorable ioCross (fun _ => ioAccepts) ioUnderstood (fun l => .refl l)
    h2 h2 h1 h3 h3
  exact ⟨bs, E, h', h'', e1, e2, e3⟩
/-- Two receivers with different pasts, one of them with other layers. -/
example : ∃ (bs : List UInt8) (E : Env) (r1 r2 : Graph), Rd.updateGraphFrom stdNodes stdEdges id (after ids ioOps') E 0 = .ok (r1, 0 + bs.length) ∧
    Rd.updateGraphFrom stdNodes stdEdges id (after [7] []) E 0 = .ok (r2, 0 + bs.length) ∧ (∀ n, r1.nodeObs n = r2.nodeObs n) ∧ r1.mesh = r2.mesh := by
  obtain ⟨bs, E, h1, h2, h3⟩ := ioMessage
  obtain ⟨r1, r2, e1, e2, _, e4, _, _, e5⟩ := C75_last_message_wins ioReached ioReached' (after_reached (ids := [7]) (ops := []) (by decide) (by decide +kernel))
    ioStorable (fun _ => ioAccepts) (fun h => absurd h (by decide +kernel)) ioUnderstood (fun l => .refl l) (fun l => .refl l) h2 h2 h1 h3 h3
  exact ⟨bs, E, r1, r2, e1, e2, e4, e5 rfl (by decide +kernel)⟩
/-- The sample graph reads its own message. -/
example : ∃ (bs : List UInt8) (E : Env) (g' : Graph), Rd.updateGraphFrom stdNodes stdEdges id (after ids ioOps) E 0 = .ok (g', 0 + bs.length) ∧
    ∀ a b, g'.edgeObs a b = (after ids ioOps).edgeObs a b := by
  obtain ⟨bs, E, h1, h2, h3⟩ := ioMessage
  obtain ⟨g', _, e1, _, _, _, e2, _⟩ := C75_own_message ioReached ioStorable ioCross ioUnderstood (fun l => .refl l) h2 h1 h3
  exact ⟨bs, E, g', e1, e2⟩
theorem transfer_eq {g h h' : Graph} {bs : List UInt8} {n : Nat} (hb : g.write stdNodes stdEdges true = .ok bs) (hl : bs.length < 2 ^ 63)
    (e : Rd.updateGraphFrom stdNodes stdEdges id h ⟨bs, hl, FileHeader.current.version, false, false, fun a _ => a⟩ 0 = .ok (h', n)) :
    GraphIO.transfer g h = .ok h' := by
  unfold GraphIO.transfer
  rw [hb]
  simp only [dif_pos hl, e]
  rfl
/-- the relay writes a message -/
theorem relayWrites : (match GraphIO.transfer (after ids ioOps) (after [7] []) with
    | .ok x => x.dynList.all (fun d => decide (d.nodes.length < 2 ^ 32)) &&
      (match x.write stdNodes stdEdges true with | .ok bs => decide (400 < bs.length ∧ bs.length < 2 ^ 63) | _ => false)
    | _ => false) = true := by decide +kernel
/-- A relay: an empty graph reads the message of the sample graph and passes it on to a receiver with a past. -/
example : ∃ r ops3, Reached ids ops3 r ∧ r.Mirrors (after ids ioOps) := by
  obtain ⟨_, ⟨bs, hl, _, _, _, _⟩, h1, _, h3⟩ := ioMessage
  simp only [List.nil_append, List.append_nil] at h3
  subst h3
  obtain ⟨h', ops1, e1, e2, e3, e4⟩ := C75_relayed (ids2 := ids) (ops2 := ioOps') (includeMesh2 := true) (pre := []) (post := [])
    (E := ⟨bs, hl, FileHeader.current.version, false, false, fun a _ => a⟩) ioReached
    (after_reached (ids := [7]) (ops := []) (by decide) (by decide +kernel)) ioStorable
    (fun h => absurd h (by decide +kernel)) ioUnderstood ioUnderstood (order := id) (fun l => .refl l) rfl h1 (by simp)
  have := relayWrites
  rw [transfer_eq h1 hl e1] at this
  simp only [Bool.and_eq_true, List.all_eq_true, decide_eq_true_eq] at this
  obtain ⟨t1, t2⟩ := this
  cases hb : h'.write stdNodes stdEdges true with
  | throw e => rw [hb] at t2; cases t2
  | ub => rw [hb] at t2; cases t2
  | ok bs2 =>
    rw [hb] at t2
    obtain ⟨r, ops3, _, f2, f3⟩ := e4 ioReached' (fun _ => ioAccepts) (E2 := ⟨bs2, by simp at t2; exact t2.2, FileHeader.current.version, false, false, fun a _ => a⟩)
      (pre2 := []) (post2 := []) rfl t1 hb (by simp)
    exact ⟨r, ops3, f2, f3⟩
end Sample
end Verif
