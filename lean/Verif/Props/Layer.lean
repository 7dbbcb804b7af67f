import Verif.Lemmas.LayerRep
import Verif.Lemmas.EdgeMap
/-! # C33, C34: edge containers and stand-alone layers -/

namespace Verif

/-- **C33.** After any history of calls that did not throw, an edge container is the map the history describes: `find`, `contains` and
`size` answer from it, `getStatus` gives the log entry, and an edge is present exactly when its status is NEW or VISIBLE (MERGED never
shows). `getNew` and `getRemoved` list each logged pair exactly once. Every further call succeeds, except removing a pair the log
knows nothing about, which throws `std::out_of_range`. -/
theorem C33_edge_container {ops : List EOp} {c : EdgeContainer} (h : EdgeContainer.run {} ops = .ok c) :
    (∀ s t, (c.find s t).2 = (EMap.empty.run ops).edges (EdgeKey.of s t)) ∧
    (∀ s t, c.contains s t = ((EMap.empty.run ops).edges (EdgeKey.of s t)).isSome) ∧
    (∀ s t, c.getStatus s t = (EMap.empty.run ops).status (EdgeKey.of s t)) ∧
    (∀ s t, c.contains s t = true ↔ c.getStatus s t = .new ∨ c.getStatus s t = .visible) ∧
    (∀ s t, c.contains s t = false ↔ c.getStatus s t = .deleted ∨ c.getStatus s t = .nonexistent) ∧
    (∃ L : List EdgeKey, L.Nodup ∧ L.length = c.size ∧ ∀ k, k ∈ L ↔ ((EMap.empty.run ops).edges k).isSome = true) ∧
    (∀ b, (c.getNew b).2.Nodup ∧ ∀ k, k ∈ (c.getNew b).2 ↔ (EMap.empty.run ops).status k = .new) ∧
    (∀ b, (c.getRemoved b).2.Nodup ∧ ∀ k, k ∈ (c.getRemoved b).2 ↔ (EMap.empty.run ops).status k = .deleted) ∧
    (∀ op, (EMap.empty.run ops).allowed op = true → ∃ c', c.step op = .ok c') ∧
    (∀ op, (EMap.empty.run ops).allowed op = false → c.step op = .throw .outOfRange) := by
  have R := RContainer.create.run ops h
  have hc : ∀ s t, c.contains s t = ((EMap.empty.run ops).edges (EdgeKey.of s t)).isSome := by
    intro s t; unfold EdgeContainer.contains OMap.contains; rw [R.ed]
  have hs : ∀ s t, c.getStatus s t = (EMap.empty.run ops).status (EdgeKey.of s t) := fun s t => R.st _
  have hl : ∀ (P : EdgeStatus) (hP : P ≠ .nonexistent), ((c.status.toList.filter (fun e => e.2 = P)).map Prod.fst).Nodup ∧
      ∀ k, k ∈ (c.status.toList.filter (fun e => e.2 = P)).map Prod.fst ↔ (EMap.empty.run ops).status k = P := by
    intro P hP
    refine ⟨?_, ?_⟩
    · exact List.Nodup.sublist (List.Sublist.map _ List.filter_sublist) (OMap.keys_nodup c.status)
    · intro k
      rw [← R.st k]
      simp only [List.mem_map, List.mem_filter, decide_eq_true_eq]
      constructor
      · rintro ⟨⟨k', v⟩, ⟨h1, rfl⟩, rfl⟩
        rw [OMap.mem_toList.1 h1]; rfl
      · intro hk
        cases hv : c.status.find? k with
        | none => rw [hv] at hk; exact absurd hk.symm hP
        | some v => rw [hv] at hk; exact ⟨(k, v), ⟨OMap.mem_toList.2 hv, hk⟩, rfl⟩
  refine ⟨fun s t => (R.findKey _).2, hc, hs, ?_, ?_, ⟨c.edges.keys, OMap.keys_nodup _, OMap.length_keys _, ?_⟩, ?_, ?_, ?_, ?_⟩
  · intro s t; rw [hc, hs]; exact R.tag _
  · intro s t
    rw [hc, hs]
    have h1 := R.tag (EdgeKey.of s t)
    have h2 := R.merged (EdgeKey.of s t)
    cases he : ((EMap.empty.run ops).edges (EdgeKey.of s t)).isSome <;> rw [he] at h1 <;>
      cases hh : (EMap.empty.run ops).status (EdgeKey.of s t) <;> simp_all
  · intro k; rw [OMap.mem_keys]; unfold OMap.contains; rw [R.ed]
  · intro b; exact hl .new (by simp)
  · intro b; exact hl .deleted (by simp)
  · intro op ha; obtain ⟨c', e, _⟩ := R.step op ha; exact ⟨c', e⟩
  · intro op ha; exact R.refused ha

/-- A history: insertions do not overwrite, removal, rewiring onto an existing pair, clearing the log. -/
def Sample.edgeOps : List EOp :=
  [.insert 1 2 none, .insert 2 1 (some { weight := 9 }), .insert 2 3 (some { weight := 4 }), .getNew true, .insert 3 4 none,
   .remove 1 2, .rewire 2 3 4 3, .rewire 4 3 5 1, .setStale, .find 5 1, .setInfo 5 1 { weight := 3 }, .getRemoved false]

example : ∃ c, EdgeContainer.run {} Sample.edgeOps = .ok c ∧ c.size = 1 ∧ (c.find 1 5).2 = some ⟨5, 1, some { weight := 3 }⟩ ∧
    c.getStatus 2 1 = .deleted ∧ (EMap.empty.run Sample.edgeOps).allowed (.remove 7 8) = false ∧ (c.getRemoved true).2.length = 3 :=
  ⟨_, by rfl, by decide +kernel, by decide +kernel, by decide +kernel, by decide +kernel, by decide +kernel⟩

/-- **C34.** Any history of calls on a stand-alone layer ends without exception or undefined behaviour and answers every call exactly
as the simple graph of `Spec/Layer.lean` does; afterwards the layer's nodes and edges are those of that simple graph, siblings mirror
edges, edges join two different nodes of the layer, and a node (edge) is present exactly when its status is NEW or VISIBLE. -/
theorem C34_layer (i : LayerId) (ops : List LOp) (hok : ∀ op ∈ ops, op.ok = true) :
    ∃ l, Layer.run { id := i } ops = .ok (l, ((LGraph.empty i).run ops).2) ∧
      (∀ n, (l.findNode n).map (fun x => (x.id, x.layer, x.timestamp, x.attrs)) =
        (((LGraph.empty i).run ops).1.nodes n).map (fun x => (x.id, x.layer, x.timestamp, x.attrs))) ∧
      (∀ n, l.hasNode n = ((LGraph.empty i).run ops).1.hasNode n) ∧
      (∀ a b, (l.findEdge a b).2 = ((LGraph.empty i).run ops).1.edges (EdgeKey.of a b)) ∧
      (∀ a b, l.hasEdge a b = ((LGraph.empty i).run ops).1.hasEdge a b) ∧
      l.Consistent ∧
      (∀ n, l.hasNode n = true ↔ l.checkNode n = .new ∨ l.checkNode n = .visible) ∧
      (∀ a b, l.hasEdge a b = true ↔ l.edges.getStatus a b = .new ∨ l.edges.getStatus a b = .visible) := by
  obtain ⟨l, e, R⟩ := RL.run ops hok (RL.create i)
  refine ⟨l, e, ?_, R.hasNode, fun a b => (R.findEdge a b).2, R.hasEdge, R.consistent, ?_, ?_⟩
  · intro n
    rw [← R.nd n]
    unfold Layer.findNode
    cases l.nodes.find? n <;> rfl
  · intro n
    rw [R.hasNode, ← R.nst n]
    unfold Layer.checkNode
    cases l.status.find? n <;> simp
  · intro a b
    rw [R.hasEdge]
    unfold LGraph.hasEdge
    rw [← R.est]
    unfold EdgeContainer.getStatus
    cases l.edges.status.find? (EdgeKey.of a b) <;> simp

/-- A history that builds a path and a triangle, merges and removes nodes, rewires edges. -/
def Sample.layerOps : List LOp :=
  [.emplaceNode 1 (some (.base {})), .emplaceNode 2 (some (.base {})), .emplaceNode 3 none, .emplaceNode 4 none, .emplaceNode 5 none,
   .insertNode { id := 6, layer := 2, attrs := none }, .insertNode { id := 7, layer := 3, attrs := none }, .emplaceNode 1 none,
   .insertEdge 1 2 none, .insertEdge 2 3 (some { weight := 4 }), .insertEdge 3 1 none, .insertEdge 2 1 none, .insertEdge 4 4 none,
   .insertEdge 4 5 none, .insertEdge 4 9 none, .rewireEdge 4 5 5 6, .mergeNodes 3 5, .removeNode 4, .removeNode 4, .newNodes true,
   .removedNodes true, .findEdge 5 2, .emplaceNode 8 none, .rewireEdge 1 2 1 8]

/-- The layer after that history. -/
def Sample.layer : Layer :=
  match Layer.run { id := 2 } Sample.layerOps with
  | .ok (l, _) => l
  | _ => { id := 2 }

theorem Sample.layer_run : Layer.run { id := 2 } Sample.layerOps = .ok (Sample.layer, ((LGraph.empty 2).run Sample.layerOps).2) := by
  decide +kernel

theorem Sample.layer_consistent : Sample.layer.Consistent := by
  obtain ⟨l, e, _, _, _, _, h, _⟩ := C34_layer 2 Sample.layerOps (by decide +kernel)
  rw [Sample.layer_run] at e
  cases e; exact h

example : (∀ op ∈ Sample.layerOps, op.ok = true) ∧
    ((LGraph.empty 2).run Sample.layerOps).2 = [true, true, true, true, true, true, false, false, true, true, true, false, false, true,
      false, true, true, true, false, true, true, true, true, true] ∧
    Sample.layer.nodes.keys = [1, 2, 5, 6, 8] ∧ Sample.layer.hasEdge 5 2 = true ∧ Sample.layer.hasEdge 5 6 = true ∧
    Sample.layer.hasEdge 8 1 = true ∧ Sample.layer.hasEdge 1 2 = false ∧ Sample.layer.edges.size = 4 := by
  decide +kernel

/-- Surprise: "rewiring" an edge to the same two nodes in the opposite order deletes it. -/
theorem C34_rewire_reversed_deletes (l : Layer) (a b : NodeId) (hab : a ≠ b) (he : l.hasEdge a b = true) (ha : l.hasNode a = true)
    (hb : l.hasNode b = true) : l.rewireEdge a b b a = l.removeEdge a b := by
  have h1 : l.hasEdge b a = true := by
    unfold Layer.hasEdge EdgeContainer.contains at *; rw [EdgeKey.of_comm]; exact he
  unfold Layer.rewireEdge
  simp only [he, ha, hb, h1, hab, Bool.not_true, Bool.false_eq_true, if_false, Bool.or_self, false_and, or_true, if_true]
  unfold Layer.removeEdge
  simp only [he, Bool.not_true, Bool.false_eq_true, if_false]
  cases l.modNode a (fun x => { x with siblings := x.siblings.erase b }) with
  | ok l1 =>
    simp only [Res.bind_ok]
    cases l1.modNode b (fun x => { x with siblings := x.siblings.erase a }) with
    | ok l2 =>
      simp only [Res.bind_ok]
      cases l2.edges.remove a b <;> rfl
    | throw e => rfl
    | ub => rfl
  | throw e => rfl
  | ub => rfl

example : Sample.layer.hasEdge 5 2 = true ∧ (∃ l', Sample.layer.rewireEdge 5 2 2 5 = .ok (l', true) ∧ l'.hasEdge 5 2 = false) :=
  ⟨by decide +kernel, _, by rfl, by decide +kernel⟩

end Verif
