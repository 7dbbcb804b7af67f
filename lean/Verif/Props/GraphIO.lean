import Verif.Lemmas.Mirror
import Verif.Props.Sample
/-! # C25, C26: whole graphs in the binary format -/

namespace Verif

section
variable {ids ids' : List LayerId} {ops ops' : List Op} {g h : Graph}

/-- The mesh after a message is the message's mesh, if it has one, otherwise the one that was there. -/
def meshAfter (msg old : Option Mesh) : Option Mesh :=
  match msg with
  | none => old
  | some m => some m

/-- **C26.** After a receiver `h` has read a message that a sender wrote for `g`, it has exactly the nodes, edges and adjacency of `g`
(whatever it had before, in whatever order the stale nodes are removed), and the reader stands right behind the message. Edges that the
receiver had keep their orientation. The receiver is again in a state that a history of API calls produces. -/
theorem C26_receiver_mirrors_sender (hg : Reached ids ops g) (hh : Reached ids' ops' h) (hs : g.Storable)
    (ha : h.layerIds = g.layerIds → h.Accepts g) {W R' : Registry NodeClass} {V Q : Registry EdgeClass} (hu : g.Understood W R' V Q)
    {order : List NodeId → List NodeId} (ho : ∀ l, (order l).Perm l) {includeMesh : Bool} {bs pre post : List UInt8} {E : Env}
    (hv : E.version = FileHeader.current.version) (hw : g.write W V includeMesh = .ok bs) (hb : E.buf = pre ++ bs ++ post) :
    ∃ h' ops'', Rd.updateGraphFrom R' Q order h E pre.length = .ok (h', pre.length + bs.length) ∧ Reached ids' ops'' h' ∧ h'.Mirrors g ∧
      h'.mesh = meshAfter (if includeMesh then g.mesh else none) (if h.layerIds = g.layerIds then h.mesh else none) ∧
      (h.layerIds = g.layerIds → ∀ a b e o, g.edgeObs a b = some e → h.edgeObs a b = some o →
        h'.edgeObs a b = some ⟨o.src, o.tgt, e.attrs⟩) ∧
      ((∀ n, h.nodeObs n = none) ∨ h.layerIds ≠ g.layerIds → ∀ a b, h'.edgeObs a b = g.edgeObs a b) := by
  obtain ⟨rg, wg⟩ := hg.rep
  obtain ⟨rh, wh⟩ := hh.rep
  have read : ∀ {w : Wr} {h0 h' : Graph}, g.write W V includeMesh = Wr.seq (Wr.vec Wr.u64 g.layerIds) w →
      Rd.RT E w (Rd.updateGraph R' Q order h0) h' → (if h.layerIds ≠ g.layerIds then h.reset g.layerIds else h) = h0 →
      Rd.updateGraphFrom R' Q order h E pre.length = .ok (h', pre.length + bs.length) := by
    intro w h0 h' hwr hrt h0e
    have : Rd.RT E (g.write W V includeMesh) (Rd.updateGraphFrom R' Q order h) h' := by
      rw [hwr]
      unfold Rd.updateGraphFrom
      refine Rd.RT.bind (Rd.RT.vec _ (fun a _ => Rd.RT.u64 a)) ?_
      rw [h0e]
      exact hrt
    exact this bs pre post hw hb
  by_cases hl : h.layerIds = g.layerIds
  · obtain ⟨w, h', ops1, outs, m1, m2, m3, m4, m5, m6, m7, m8⟩ := GraphIO.mirror rg wg rh wh hl hs (ha hl) hu ho (incl := includeMesh) hv
    refine ⟨h', ops' ++ ops1, read m1 m2 (if_neg (by simpa using hl)), ⟨hh.nonempty, ?_, ?_⟩, m5, ?_, ?_, ?_⟩
    · rw [Op.okAll_append, hh.ok, m3]; rfl
    · obtain ⟨o1, e1⟩ := hh.run
      obtain ⟨c, hc, he⟩ := bind_eq_ok e1
      refine ⟨o1 ++ outs, ?_⟩
      simp only [Graph.exec, hc, Res.bind_ok, Graph.run_append, he, m4]
    · rw [m8, if_pos hl]
      cases (if includeMesh = true then g.mesh else none) <;> rfl
    · intro _ a b e o he ho'
      obtain ⟨e', x1, x2, x3⟩ := m6 a b e he
      obtain ⟨x4, x5⟩ := x3 o ho'
      rw [x1, ← x2, ← x4, ← x5]
    · rintro (hh0 | hne)
      · exact m7 hh0
      · exact absurd hl hne
  · have rr := rh.reset g.layerIds
    have wr := wh.reset g.layerIds
    have hempty : ∀ n, (h.reset g.layerIds).nodeObs n = none := fun n => by rw [rr.nodeObs wr]; rfl
    have hacc : (h.reset g.layerIds).Accepts g := by
      constructor
      · intro n i j _ hj; rw [hempty] at hj; cases hj
      · intro n m i j _ hj; rw [hempty] at hj; cases hj
      · intro n m kn km he
        rw [rr.hasEdge wr] at he
        cases he
    obtain ⟨w, h', ops1, outs, m1, m2, m3, m4, m5, m6, m7, m8⟩ := GraphIO.mirror rg wg rr wr (by rfl) hs hacc hu ho (incl := includeMesh) hv
    refine ⟨h', ops' ++ (.reset g.layerIds :: ops1), read m1 m2 (if_pos hl), ⟨hh.nonempty, ?_, ?_⟩, m5, ?_, fun h => absurd h hl, fun _ => m7 hempty⟩
    · rw [Op.okAll_append, hh.ok]
      simp only [Op.okAll, Bool.and_eq_true]
      exact ⟨trivial, rfl, m3⟩
    · obtain ⟨o1, e1⟩ := hh.run
      obtain ⟨c, hc, he⟩ := bind_eq_ok e1
      refine ⟨o1 ++ .unit :: outs, ?_⟩
      simp only [Graph.exec, hc, Res.bind_ok, Graph.run_append, he]
      simp only [Graph.run, Graph.step, Res.bind_ok, m4]
    · rw [m8, if_neg hl]
      cases (if includeMesh = true then g.mesh else none) <;> rfl

/-- **C25.** Reading what was written for `g` gives a graph with the layer ids, nodes, edges, adjacency and mesh of `g`. -/
theorem C25_graph_round_trip (hg : Reached ids ops g) (hs : g.Storable) (hne : g.layerIds ≠ [])
    {W R' : Registry NodeClass} {V Q : Registry EdgeClass} (hu : g.Understood W R' V Q)
    {order : List NodeId → List NodeId} (ho : ∀ l, (order l).Perm l) {includeMesh : Bool} {bs pre post : List UInt8} {E : Env}
    (hv : E.version = FileHeader.current.version) (hw : g.write W V includeMesh = .ok bs) (hb : E.buf = pre ++ bs ++ post) :
    ∃ h ops', Rd.readGraph R' Q order E pre.length = .ok (h, pre.length + bs.length) ∧ Reached g.layerIds ops' h ∧ h.Mirrors g ∧
      (∀ a b, h.edgeObs a b = g.edgeObs a b) ∧ h.mesh = (if includeMesh then g.mesh else none) := by
  obtain ⟨h, ops', r1, r2, r3, r4, r5, _⟩ := GraphIO.readAs hg hs hne hu ho (includeMesh := includeMesh) (Fmt.reads_current hv)
    (by rw [Graph.writeAs_current]; exact hw) hb
  exact ⟨h, ops', r1, r2, GraphIO.mirrors_current.1 r3, r4, r5⟩

/-- **C25, files.** The same for a file: header and graph. -/
theorem C25_file_round_trip (hg : Reached ids ops g) (hs : g.Storable) (hne : g.layerIds ≠ []) {P P' : Prog} (hu : g.Understood P.R P'.R P.Q P'.Q)
    (ho : ∀ l, (P'.order l).Perm l) {includeMesh : Bool} {file : List UInt8} (hw : g.saveBinary P includeMesh = .ok file)
    (hlen : file.length < 2 ^ 63) :
    ∃ h ops', Graph.loadBinary P' file hlen = .ok h ∧ Reached g.layerIds ops' h ∧ h.Mirrors g ∧
      (∀ a b, h.edgeObs a b = g.edgeObs a b) ∧ h.mesh = (if includeMesh then g.mesh else none) := by
  obtain ⟨b1, b2, h1, h2, rfl⟩ := Rd.seq_ok hw
  have hd : (b1 ++ b2).drop b1.length = b2 := by simp
  have hh := C29_header_round_trip FileHeader.current b1 b2 (P'.env (b1 ++ b2) hlen FileHeader.current.version) h1 rfl
  obtain ⟨h, ops', r1, r2, r3, r4, r5⟩ := C25_graph_round_trip hg hs hne hu ho (includeMesh := includeMesh) (bs := b2) (pre := []) (post := [])
    (E := P'.env ((b1 ++ b2).drop b1.length) (by simp at hlen ⊢; omega) FileHeader.current.version) rfl h2 (by rw [show (Prog.env P' ((b1 ++ b2).drop b1.length) _ FileHeader.current.version).buf = (b1 ++ b2).drop b1.length from rfl, hd]; simp)
  refine ⟨h, ops', ?_, r2, r3, r4, r5⟩
  unfold Graph.loadBinary
  rw [hh]
  simp only [Res.bind_ok, Option.getD_some]
  rw [show FileHeader.current.checkCompatibility = .ok () by decide +kernel]
  simp only [Res.bind_ok]
  rw [show Rd.readGraph P'.R P'.Q P'.order _ 0 = .ok (h, [].length + b2.length) from r1]
  rfl

end

/-! ## The hypotheses can be met -/

namespace Sample
/-- a semantic node -/
def at2 : NodeAttrs := .semantic { position := ⟨1, 2, 3⟩ } { name := [0x6f, 0x6b], label := 5 }

/-- A history with nodes of several classes, a trajectory, edges of all kinds and a mesh. -/
def ioOps : List Op :=
  [.emplaceNode 2 10 at0, .emplaceNode 2 11 at2, .emplaceNode 3 20 at1, .emplaceDyn 2 pa 100 at0 true, .emplaceDyn 2 pa 200 at2 true,
   .insertEdge 10 11 (some { weighted := true, weight := 5 }), .insertParentEdge 20 10 none, .insertEdge (a 0) 20 none,
   .setMesh (some { points := [⟨1, 2, 3⟩] , colors := [{}], stamps := [0], firstSeen := [1], labels := [0] })]

/-- What the receiver did before. -/
def ioOps' : List Op :=
  [.emplaceNode 2 10 at1, .emplaceNode 4 30 at0, .insertEdge 30 10 none, .emplaceNode 3 20 at0, .insertEdge 10 20 none,
   .emplaceDyn 2 pa 100 at1 false, .emplaceDyn 4 pa 7 at1 false]

/-- the graph after a history -/
def after (ids : List LayerId) (ops : List Op) : Graph :=
  match Graph.exec ids ops with
  | .ok (g, _) => g
  | _ => { layerIds := [] }

theorem after_reached {ids : List LayerId} {ops : List Op} (h1 : ids ≠ []) (h2 : Op.okAll (Spec.init ids) ops = true) : Reached ids ops (after ids ops) := by
  obtain ⟨g, outs, e, _⟩ := exec_ok h1 h2
  refine ⟨h1, h2, outs, ?_⟩
  rw [e]
  unfold after
  rw [e]

/-- A statement about all nodes of a graph, checked over the nodes of its history. -/
theorem forall_nodes {ids : List LayerId} {ops : List Op} {g : Graph} (h : Reached ids ops g) {P : NodeId → NodeInfo → Prop}
    (hP : ∀ e ∈ ((Spec.init ids).after ops).nodes.toList, P e.1 e.2) (n : NodeId) (i : NodeInfo) (hn : g.nodeObs n = some i) : P n i := by
  rw [h.rep.1.nodeObs h.rep.2] at hn
  exact hP (n, i) (OMap.mem_toList.2 hn)

theorem ioReached : Reached ids ioOps (after ids ioOps) := after_reached (by decide) (by decide +kernel)
theorem ioReached' : Reached ids ioOps' (after ids ioOps') := after_reached (by decide) (by decide +kernel)

theorem ioStorable : (after ids ioOps).Storable where
  plain := forall_nodes ioReached (by decide +kernel)
  layers := forall_nodes (P := fun _ i => i.key.layer ∈ (after ids ioOps).layerIds) ioReached (by decide +kernel)
  slots := by
    have : ((after ids ioOps).dynList.all (fun d => decide (d.nodes.length < 2 ^ 32) && !d.nodes.contains none)) = true := by decide +kernel
    intro d hd
    have := List.all_eq_true.1 this d hd
    simpa using this
  typed := by
    refine forall_nodes (P := fun _ i => i.attrs.Typed) ioReached ?_
    have : ∀ e ∈ ((Spec.init ids).after ioOps).nodes.toList, e.2.attrs = at0 ∨ e.2.attrs = at1 ∨ e.2.attrs = at2 := by decide +kernel
    intro e he
    rcases this e he with h | h | h <;> rw [h]
    · trivial
    · trivial
    · refine ⟨?_, 0, 0, ?_⟩ <;> (unfold Matrix.Sized; decide)

theorem ioUnderstood : (after ids ioOps).Understood stdNodes stdNodes stdEdges stdEdges where
  nodesOnce := stdNodes_once
  edgesOnce := by unfold Registry.Once; decide +kernel
  nodesFew := by decide
  edgesFew := by decide
  nodes := by
    refine forall_nodes (P := fun _ i => ∃ name, (name, i.attrs.cls) ∈ stdNodes.entries ∧ stdNodes.find? name = some i.attrs.cls) ioReached ?_
    have : ∀ e ∈ ((Spec.init ids).after ioOps).nodes.toList, e.2.attrs.cls = .base ∨ e.2.attrs.cls = .semantic := by decide +kernel
    intro e he
    rcases this e he with h | h <;> rw [h]
    · exact ⟨Str.lit "NodeAttributes", by decide +kernel, by decide +kernel⟩
    · exact ⟨Str.lit "SemanticNodeAttributes", by decide +kernel, by decide +kernel⟩
  edges := ⟨Str.lit "EdgeAttributes", by decide +kernel, by decide +kernel⟩

end Sample

open Sample in
/-- the hypotheses of C25 and C26 are met by a graph with all kinds of nodes and edges, which is written to a nonempty buffer -/
example : Reached ids ioOps (after ids ioOps) ∧ (after ids ioOps).Storable ∧ (after ids ioOps).layerIds ≠ [] ∧
    (after ids ioOps).Understood stdNodes stdNodes stdEdges stdEdges ∧
    (match (after ids ioOps).write stdNodes stdEdges true with | .ok bs => decide (400 < bs.length ∧ bs.length < 2 ^ 63) | _ => false) = true :=
  ⟨ioReached, ioStorable, by decide +kernel, ioUnderstood, by decide +kernel⟩

open Sample in
/-- … and of C26 by a receiver that shares some nodes and has others -/
example : Reached ids ioOps' (after ids ioOps') ∧ (after ids ioOps').Accepts (after ids ioOps) := by
  refine ⟨ioReached', ?_, ?_, ?_⟩
  · intro n i j hi hj
    refine forall_nodes (P := fun n i => ∀ j ∈ (after ids ioOps').nodeObs n, j.key = i.key ∧ j.stamp = i.stamp) ioReached ?_ n i hi j hj
    decide +kernel
  · intro n m i j hi hj
    refine forall_nodes (P := fun m j => i.key.dynamic = true → j.key = i.key → j.stamp = i.stamp → m = n) ioReached' ?_ m j hj
    refine forall_nodes (P := fun n i => ∀ e ∈ ((Spec.init ids).after ioOps').nodes.toList,
      i.key.dynamic = true → e.2.key = i.key → e.2.stamp = i.stamp → e.1 = n) ioReached ?_ n i hi
    decide +kernel
  · intro n m kn km h1 h2 h3
    rw [ioReached'.rep.1.hasEdge ioReached'.rep.2] at h1
    rw [ioReached'.rep.1.getLayerForNode] at h2 h3
    have h4 := Res.ok.inj h1
    have key : ∀ e ∈ ((Spec.init ids).after ioOps').edges.toList, ∀ k1 ∈ ((Spec.init ids).after ioOps').key? e.1.k1,
        ∀ k2 ∈ ((Spec.init ids).after ioOps').key? e.1.k2, k1.layer = k2.layer → k1 = k2 := by decide +kernel
    obtain ⟨e, he⟩ := OMap.contains_eq_true.1 (show ((Spec.init ids).after ioOps').edges.contains (EdgeKey.of n m) = true from h4)
    have := key _ (OMap.mem_toList.2 he)
    intro hl
    rcases EdgeKey.of_eq n m with ⟨h5, _⟩ | ⟨h5, _⟩ <;> rw [h5] at this
    · exact (this kn h2 km h3 hl.symm).symm
    · exact this km h3 kn h2 hl

/-! ## Every condition is needed -/

namespace GraphIO
open Sample

/-- write a graph and read it back with the standard classes -/
def reload (g : Graph) : Res Graph :=
  match g.write stdNodes stdEdges true with
  | .ok bs => if h : bs.length < 2 ^ 63 then
      (Rd.readGraph stdNodes stdEdges id ⟨bs, h, FileHeader.current.version, false, false, fun a _ => a⟩ 0 >>= fun r => .ok r.1) else .ub
  | .throw e => .throw e
  | .ub => .ub
/-- write a graph and let another one read it -/
def transfer (g h : Graph) : Res Graph :=
  match g.write stdNodes stdEdges true with
  | .ok bs => if hl : bs.length < 2 ^ 63 then
      (Rd.updateGraphFrom stdNodes stdEdges id h ⟨bs, hl, FileHeader.current.version, false, false, fun a _ => a⟩ 0 >>= fun r => .ok r.1) else .ub
  | .throw e => .throw e
  | .ub => .ub

/-- the value of a call -/
def value (r : Res Graph) : Graph :=
  match r with
  | .ok g => g
  | _ => { layerIds := [] }
/-- the call returns -/
def returns {α : Type} (r : Res α) : Bool :=
  match r with
  | .ok _ => true
  | _ => false
theorem value_ok {r : Res Graph} (h : returns r = true) : r = .ok (value r) := by
  cases r <;> first | rfl | cases h
theorem returns_ok {α : Type} {r : Res α} (h : returns r = true) : ∃ a, r = .ok a := by
  cases r with
  | ok a => exact ⟨a, rfl⟩
  | throw e => cases h
  | ub => cases h

/-- A dynamic layer whose id is not a layer id of the graph is written, but its nodes are dropped on reading. -/
theorem C25_foreign_dynamic_layer_lost : ∃ ids ops g g' n, Reached ids ops g ∧ g.hasNode n = true ∧ reload g = .ok g' ∧ g'.hasNode n = false :=
  ⟨[2, 3], [.emplaceDyn 7 pa 100 at0 true], after [2, 3] [.emplaceDyn 7 pa 100 at0 true], value (reload (after [2, 3] [.emplaceDyn 7 pa 100 at0 true])), a 0, after_reached (by decide) (by decide +kernel),
    by decide +kernel, value_ok (by decide +kernel), by decide +kernel⟩

/-- After a dynamic node has been removed, writing the graph dereferences a null pointer. -/
theorem C25_removed_dynamic_node_null : ∃ ids ops g, Reached ids ops g ∧ g.write stdNodes stdEdges true = .ub :=
  ⟨[2], [.emplaceDyn 2 pa 100 at0 true, .emplaceDyn 2 pa 200 at0 true, .removeNode (a 0)], _, after_reached (by decide) (by decide +kernel), by decide +kernel⟩

/-- A node of a static layer with a time stamp comes back in a dynamic layer. -/
theorem C25_stamped_static_node_moves : ∃ ids ops g g' n, Reached ids ops g ∧ g.getLayerForNode n = some (.static 2) ∧ reload g = .ok g' ∧
    g'.getLayerForNode n = some (.dyn 2 pa) :=
  ⟨[2], [.insertNode 2 (a 0) (some 5) at0], after [2] [.insertNode 2 (a 0) (some 5) at0], value (reload (after [2] [.insertNode 2 (a 0) (some 5) at0])), a 0,
    after_reached (by decide) (by decide +kernel), by decide +kernel, value_ok (by decide +kernel), by decide +kernel⟩

/-- A graph that was reset to no layers can be written, but not read. -/
theorem C25_no_layers_unreadable : ∃ ids ops g, Reached ids ops g ∧ (∃ bs, g.write stdNodes stdEdges true = .ok bs) ∧ reload g = .throw .domainError :=
  ⟨[2], [.reset []], after [2] [.reset []], after_reached (by decide) (by decide +kernel), returns_ok (by decide +kernel), by decide +kernel⟩

/-- A node that the receiver has in another layer stays there. -/
theorem C26_moved_node_stays : ∃ ops ops' g h h' n, Reached [2, 3] ops g ∧ Reached [2, 3] ops' h ∧ transfer g h = .ok h' ∧
    g.getLayerForNode n = some (.static 2) ∧ h'.getLayerForNode n = some (.static 3) :=
  ⟨[.emplaceNode 2 10 at0], [.emplaceNode 3 10 at0], after _ _, after _ _, value (transfer (after _ _) (after _ _)), 10, after_reached (by decide) (by decide +kernel),
    after_reached (by decide) (by decide +kernel), value_ok (by decide +kernel), by decide +kernel, by decide +kernel⟩

/-- A receiver never forgets its mesh: a message without one leaves the old mesh in place. -/
theorem C26_old_mesh_stays : ∃ ops ops' g h h', Reached [2, 3] ops g ∧ Reached [2, 3] ops' h ∧ transfer g h = .ok h' ∧ g.mesh = none ∧ h'.mesh ≠ none :=
  ⟨[.emplaceNode 2 10 at0], [.setMesh (some {})], after _ _, after _ _, value (transfer (after _ _) (after _ _)), after_reached (by decide) (by decide +kernel),
    after_reached (by decide) (by decide +kernel), value_ok (by decide +kernel), by decide +kernel, by decide +kernel⟩

end GraphIO
end Verif
