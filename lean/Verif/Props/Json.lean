import Verif.Lemmas.Json6
import Verif.Lemmas.Ieee
import Verif.Props.Clone
import Verif.Props.Binary
/-! # C27: graphs as JSON documents -/

namespace Verif

section
variable {ids : List LayerId} {ops : List Op} {g : Graph}

/-- **C27.** A graph that the format can represent is written without an error; the document, printed and parsed, is read without an error;
and the graph read has the same layer ids, nodes with layer, stamp and attributes (as far as the format keeps them), edges with orientation
and attributes, adjacency sets and, if it was asked for, mesh. It is again a graph that a history of API calls produces. Coordinates of positions,
of mesh vertices and of other vectors and matrices may have any value: those that are not finite come back as NaN. -/
theorem C27_json_round_trip (hg : Reached ids ops g) (hne : g.layerIds ≠ []) {E : JEnv} {includeMesh : Bool}
    (hp : g.Printable E.toJArith) {W R' : Registry NodeClass} {V Q : Registry EdgeClass} (hu : g.Nameable W R' V Q) :
    ∃ j h ops', g.writeJson E.toJArith W V includeMesh = .ok j ∧ E.readGraph R' Q j = .ok h ∧ Reached g.layerIds ops' h ∧
      h.Copies E.toJArith g ∧ h.mesh = if includeMesh then g.mesh.map Mesh.printed else none := by
  obtain ⟨hr, hw⟩ := hg.rep
  obtain ⟨j, h, ops', τ, hj, hc, hh, rh, wh, h1, h2, h3, h4⟩ := hr.json_whole hw hne E.toJArith.exact hp hu
  have hhas : ∀ a b, τ.hasEdge a b = ((Spec.init ids).after ops).hasEdge a b := by
    intro a b
    unfold Spec.hasEdge
    rw [Bool.eq_iff_iff, OMap.contains_eq_true, OMap.contains_eq_true, h4]
  have hck : ∀ i : NodeInfo, (i.with (NodeAttrs.jsonKept E.toJArith)).cloned.key = i.key := by
    intro i; unfold NodeInfo.cloned; split <;> rfl
  have hkey : ∀ n, (τ.nodes.find? n).map NodeInfo.key = (((Spec.init ids).after ops).nodes.find? n).map NodeInfo.key := by
    intro n
    rw [h3]
    cases ((Spec.init ids).after ops).nodes.find? n with
    | none => rfl
    | some i => exact congrArg some (hck i)
  refine ⟨j, h, ops', hj, hc, hh, ⟨?_, ?_, ?_, ?_⟩, ?_⟩
  · rw [show h.layerIds = _ from rh.layerIds, h1]; exact (show g.layerIds = _ from hr.layerIds).symm
  · intro n
    rw [rh.nodeObs wh, h3, ← hr.nodeObs hw]
    cases hn : g.nodeObs n with
    | none => rfl
    | some i =>
      refine congrArg some ?_
      have hpl := hp.plain n i hn
      obtain ⟨k, st, at'⟩ := i
      cases k with
      | dyn l p => rfl
      | static l =>
        have : st = none := hpl rfl
        subst this
        rfl
  · intro a b; rw [rh.edgeObs wh, hr.edgeObs hw]; exact h4 _
  · intro n
    rw [rh.adjObs wh, hr.adjObs hw, h3]
    cases ((Spec.init ids).after ops).nodes.find? n with
    | none => rfl
    | some i =>
      simp only [Option.map_some, Spec.parents, Spec.siblings, Spec.children, GraphIO.nbrs_congr hkey hhas, hck]
  · rw [show h.mesh = _ from rh.mesh, h2]

/-- **C27.** If, further, the format keeps all members of the attributes present, nodes are exactly the same. -/
theorem C27_json_exact (hg : Reached ids ops g) (hne : g.layerIds ≠ []) {E : JEnv} {includeMesh : Bool}
    (hp : g.Printable E.toJArith) {W R' : Registry NodeClass} {V Q : Registry EdgeClass} (hu : g.Nameable W R' V Q)
    (hk : ∀ n i, g.nodeObs n = some i → i.attrs.jsonKept E.toJArith = i.attrs) :
    ∃ j h, g.writeJson E.toJArith W V includeMesh = .ok j ∧ E.readGraph R' Q j = .ok h ∧ h.layerIds = g.layerIds ∧
      (∀ n, h.nodeObs n = g.nodeObs n) ∧ (∀ a b, h.edgeObs a b = g.edgeObs a b) ∧ ∀ n, h.adjObs n = g.adjObs n := by
  obtain ⟨j, h, _, hj, hc, _, ⟨c1, c2, c3, c4⟩, _⟩ := C27_json_round_trip hg hne hp hu
  refine ⟨j, h, hj, hc, c1, fun n => ?_, c3, c4⟩
  rw [c2]
  cases hn : g.nodeObs n with
  | none => rfl
  | some i =>
    have := hk n i hn
    obtain ⟨k, st, a⟩ := i
    exact congrArg some (congrArg (NodeInfo.mk k st) this)

/-- A coefficient is kept exactly if it is finite or the NaN that the reader produces. -/
theorem C27_kept_coefficient (d : F64) : d.printed = d ↔ F64.finite d = true ∨ d = F64.nan := by
  unfold F64.printed
  split
  · exact ⟨fun _ => .inl ‹_›, fun _ => rfl⟩
  · exact ⟨fun h => .inr h.symm, fun h => h.elim (fun h => absurd h ‹_›) Eq.symm⟩
theorem C27_kept_coefficient_float (x : F32) : x.printed = x ↔ F32.finite x = true ∨ x = F32.nan := by
  unfold F32.printed
  split
  · exact ⟨fun _ => .inl ‹_›, fun _ => rfl⟩
  · exact ⟨fun h => .inr h.symm, fun h => h.elim (fun h => absurd h ‹_›) Eq.symm⟩

/-- Attributes without bounding boxes are kept entirely if their coordinates are finite: base and agent attributes. -/
theorem C27_kept_base (F : JArith) (b : BaseAttrs) (h : b.position.Finite) : (NodeAttrs.base b).jsonKept F = .base b := by
  obtain ⟨⟨x, y, z⟩, _⟩ := b
  obtain ⟨h1, h2, h3⟩ := h
  have h1 : x.printed = x := (C27_kept_coefficient _).2 (.inl h1)
  have h2 : y.printed = y := (C27_kept_coefficient _).2 (.inl h2)
  have h3 : z.printed = z := (C27_kept_coefficient _).2 (.inl h3)
  simp only [NodeAttrs.jsonKept, BaseAttrs.printed, V3d.printed, h1, h2, h3]
theorem C27_kept_agent (F : JArith) (b : BaseAttrs) (a : AgentAttrs) (h : b.position.Finite) (ha : ∀ x ∈ a.dbowValues.data, F32.finite x = true) :
    (NodeAttrs.agent b a).jsonKept F = .agent b a := by
  have h1 : b.printed = b := by
    have := C27_kept_base F b h
    exact NodeAttrs.base.inj this
  have h2 : a.dbowValues.data.map F32.printed = a.dbowValues.data := by
    refine (List.map_congr_left (g := id) (fun x hx => ?_)).trans (List.map_id _)
    exact (C27_kept_coefficient_float x).2 (.inl (ha x hx))
  simp only [NodeAttrs.jsonKept, AgentAttrs.printed, h1, h2]
/-- A mesh with finite vertices is kept entirely. -/
theorem C27_kept_mesh (m : Mesh) (h : ∀ p ∈ m.points, p.Finite) : m.printed = m := by
  have : m.points.map V3f.printed = m.points := by
    refine (List.map_congr_left (g := id) (fun x hx => ?_)).trans (List.map_id _)
    obtain ⟨x, y, z⟩ := x
    obtain ⟨h1, h2, h3⟩ := h _ hx
    have h1 : x.printed = x := (C27_kept_coefficient_float _).2 (.inl h1)
    have h2 : y.printed = y := (C27_kept_coefficient_float _).2 (.inl h2)
    have h3 : z.printed = z := (C27_kept_coefficient_float _).2 (.inl h3)
    simp only [V3f.printed, h1, h2, h3, id]
  simp only [Mesh.printed, this]

/-- A bounding box is kept if it is invalid and empty, or valid with dimensions and position that are kept and a rotation that survives the
conversion to a quaternion and back. -/
theorem C27_kept_bbox (F : JArith) (b : BBox) : b.jsonKept F = b ↔ b.Lossless F := by
  unfold BBox.jsonKept BBox.Lossless
  split
  · constructor
    · intro h
      exact ⟨congrArg BBox.dims h, congrArg BBox.center h, congrArg BBox.rot h⟩
    · rintro ⟨h1, h2, h3⟩
      rw [h1, h2, h3]
  · exact eq_comm

end

/-! ## The hypotheses can be met -/

namespace Sample

/-- Number conversions that are right as far as the sample uses them. -/
def numbers : JArith where
  ofUInt _ := 0
  ofInt _ := 0
  ofUInt32 _ := 0
  ofInt32 _ := 0
  trunc _ := none
  toQuat _ := (0x3f800000, 0, 0, 0)
  ofQuat _ := ({} : BBox).rot
  fsub a _ := a
/-- the environment of a reader -/
def reader : JEnv := { numbers with version := ⟨1, 0, 0⟩ }

/-- a node with a bounding box and a name -/
def at3 : NodeAttrs := .semantic { position := ⟨1, 2, F64.nan⟩ } { name := [0x6f, 0xc3, 0xa4], label := 5, bbox := { type := 1, dims := ⟨1, 2, 3⟩ } }

/-- A history with nodes of several classes, a trajectory with a gap, edges of all kinds and a mesh. -/
def jsOps : List Op :=
  [.emplaceNode 2 10 at0, .emplaceNode 2 11 at3, .emplaceNode 3 20 at1, .emplaceDyn 2 pa 100 at0 true, .emplaceDyn 2 pa 200 at2 true,
   .emplaceDyn 2 pa 300 at3 true, .removeNode (a 1), .emplaceDyn 9 0x62000000 50 at0 true,
   .insertEdge 10 11 (some { weighted := true, weight := 5 }), .insertParentEdge 20 10 none, .insertEdge (a 0) 20 none,
   .setMesh (some { points := [⟨1, 2, 3⟩] , colors := [{}], stamps := [0], firstSeen := [1], labels := [0] })]

theorem jsReached : Reached ids jsOps (after ids jsOps) := after_reached (by decide) (by decide +kernel)

theorem jsPrintable : (after ids jsOps).Printable reader.toJArith where
  plain := forall_nodes (P := fun _ i => i.key.dynamic = false → i.stamp = none) jsReached (by decide +kernel)
  slots := by
    have : ((after ids jsOps).dynList.all (fun d => decide (d.nodes.length < 2 ^ 32))) = true := by decide +kernel
    intro d hd
    have := List.all_eq_true.1 this d hd
    simpa using this
  typed := by
    refine forall_nodes (P := fun _ i => i.attrs.Typed) jsReached ?_
    have : ∀ e ∈ ((Spec.init ids).after jsOps).nodes.toList, e.2.attrs = at0 ∨ e.2.attrs = at1 ∨ e.2.attrs = at3 := by decide +kernel
    intro e he
    rcases this e he with h | h | h <;> rw [h]
    · trivial
    · trivial
    · refine ⟨?_, 0, 0, ?_⟩ <;> (unfold Matrix.Sized; decide)
  nodes := by
    refine forall_nodes (P := fun _ i => i.attrs.Printable reader.toJArith) jsReached ?_
    have : ∀ e ∈ ((Spec.init ids).after jsOps).nodes.toList, e.2.attrs = at0 ∨ e.2.attrs = at1 ∨ e.2.attrs = at3 := by decide +kernel
    intro e he
    rcases this e he with h | h | h <;> rw [h]
    · trivial
    · trivial
    · exact ⟨by decide, fun _ => ⟨by decide, by decide, by decide, by decide⟩, by decide, by decide, by decide⟩
  edges := by
    intro a b i hi
    rw [jsReached.rep.1.edgeObs jsReached.rep.2] at hi
    have : ∀ e ∈ ((Spec.init ids).after jsOps).edges.toList, F64.finite e.2.attrs.weight = true := by decide +kernel
    generalize (Spec.init ids).after jsOps = σ at hi this
    exact this (EdgeKey.of a b, i) (OMap.mem_toList.2 hi)

theorem jsNameable : (after ids jsOps).Nameable stdNodes stdNodes stdEdges stdEdges where
  nodesOnce := stdNodes_once
  edgesOnce := by unfold Registry.Once; decide +kernel
  nodesFew := by decide
  edgesFew := by decide
  nodes := by
    refine forall_nodes (P := fun _ i => ∃ name, Str.IsText name ∧ (name, i.attrs.cls) ∈ stdNodes.entries ∧ stdNodes.find? name = some i.attrs.cls) jsReached ?_
    have : ∀ e ∈ ((Spec.init ids).after jsOps).nodes.toList, e.2.attrs.cls = .base ∨ e.2.attrs.cls = .semantic := by decide +kernel
    intro e he
    rcases this e he with h | h <;> rw [h]
    · exact ⟨Str.lit "NodeAttributes", by decide +kernel, by decide +kernel, by decide +kernel⟩
    · exact ⟨Str.lit "SemanticNodeAttributes", by decide +kernel, by decide +kernel, by decide +kernel⟩
  edges := ⟨Str.lit "EdgeAttributes", by decide +kernel, by decide +kernel, by decide +kernel⟩

example : ∃ j h ops', (after ids jsOps).writeJson reader.toJArith stdNodes stdEdges true = .ok j ∧ reader.readGraph stdNodes stdEdges j = .ok h ∧
    Reached (after ids jsOps).layerIds ops' h ∧ h.Copies reader.toJArith (after ids jsOps) ∧ h.mesh = (after ids jsOps).mesh.map Mesh.printed :=
  C27_json_round_trip jsReached (by decide +kernel) jsPrintable jsNameable

example : ∃ j h, (after ids jsOps).writeJson reader.toJArith stdNodes stdEdges false = .ok j ∧ reader.readGraph stdNodes stdEdges j = .ok h ∧
    h.layerIds = ids ∧ (∀ n, h.nodeObs n = (after ids jsOps).nodeObs n) ∧ (∀ a b, h.edgeObs a b = (after ids jsOps).edgeObs a b) ∧
      ∀ n, h.adjObs n = (after ids jsOps).adjObs n :=
  C27_json_exact jsReached (by decide +kernel) jsPrintable jsNameable
    (forall_nodes (P := fun _ i => i.attrs.jsonKept reader.toJArith = i.attrs) jsReached (by decide +kernel))

example : (after ids jsOps).nodeObs (a 1) = none ∧ (after ids jsOps).nodeObs (a 2) = some ⟨.dyn 2 pa, some 300, at3⟩ := by decide +kernel

end Sample

/-! ## What the format does not keep -/

namespace JsonLimits
open Sample GraphIO

/-- written, printed, parsed and read -/
def again (R : Registry NodeClass) (Q : Registry EdgeClass) (g : Graph) : Res Graph := do
  let j ← g.writeJson reader.toJArith stdNodes stdEdges true
  reader.readGraph R Q j

/-- An edge weight that is not finite is printed as `null`: the document is written without complaint and cannot be read again. -/
theorem C27_infinite_weight_unreadable : ∃ ops g, Reached ids ops g ∧ returns (g.writeJson reader.toJArith stdNodes stdEdges true) = true ∧
    again stdNodes stdEdges g = .throw .json :=
  ⟨[.emplaceNode 2 10 at0, .emplaceNode 2 11 at0, .insertEdge 10 11 (some { weighted := true, weight := 0x7ff0000000000000 })], _,
    after_reached (by decide) (by decide +kernel), by decide +kernel, by decide +kernel⟩

/-- An infinite coordinate comes back as NaN. -/
theorem C27_infinite_position_becomes_nan : ∃ ops g h, Reached ids ops g ∧ again stdNodes stdEdges g = .ok h ∧
    g.nodeObs 10 = some ⟨.static 2, none, .base { position := ⟨0x7ff0000000000000, 0, 0⟩ }⟩ ∧
    h.nodeObs 10 = some ⟨.static 2, none, .base { position := ⟨F64.nan, 0, 0⟩ }⟩ :=
  ⟨[.emplaceNode 2 10 (.base { position := ⟨0x7ff0000000000000, 0, 0⟩ })], _, value (again stdNodes stdEdges (after ids [.emplaceNode 2 10 (.base { position := ⟨0x7ff0000000000000, 0, 0⟩ })])), after_reached (by decide) (by decide +kernel),
    by decide +kernel, by decide +kernel, by decide +kernel⟩

/-- The members of an invalid bounding box are lost. -/
theorem C27_invalid_box_lost : ∃ ops g h, Reached ids ops g ∧ again stdNodes stdEdges g = .ok h ∧
    g.nodeObs 10 = some ⟨.static 2, none, .semantic {} { bbox := { center := ⟨1, 2, 3⟩ } }⟩ ∧ h.nodeObs 10 = some ⟨.static 2, none, .semantic {} {}⟩ :=
  ⟨[.emplaceNode 2 10 (.semantic {} { bbox := { center := ⟨1, 2, 3⟩ } })], _,
    value (again stdNodes stdEdges (after ids [.emplaceNode 2 10 (.semantic {} { bbox := { center := ⟨1, 2, 3⟩ } })])), after_reached (by decide) (by decide +kernel),
    by decide +kernel, by decide +kernel, by decide +kernel⟩

/-- A graph with a name that is not UTF-8 cannot be written. -/
theorem C27_name_not_utf8 : ∃ ops g, Reached ids ops g ∧ g.writeJson reader.toJArith stdNodes stdEdges true = .throw .json := by
  refine ⟨[.emplaceNode 2 10 (.semantic {} { name := [0xff] })], _, after_reached (by decide) (by decide +kernel), ?_⟩
  have : (match (after ids [.emplaceNode 2 10 (.semantic {} { name := [0xff] })]).writeJson reader.toJArith stdNodes stdEdges true with
    | .throw .json => true | _ => false) = true := by decide +kernel
  generalize (after ids [.emplaceNode 2 10 (.semantic {} { name := [0xff] })]).writeJson reader.toJArith stdNodes stdEdges true = r at this ⊢
  revert this
  match r with
  | .throw .json => exact fun _ => rfl
  | .ok _ | .ub => exact fun h => by cases h
  | .throw e => cases e <;> first | exact fun _ => rfl | exact fun h => by cases h

/-- A static node with a time stamp comes back in a dynamic layer. -/
theorem C27_stamped_static_moves : ∃ ops g h, Reached ids ops g ∧ again stdNodes stdEdges g = .ok h ∧
    g.getLayerForNode (a 0) = some (.static 2) ∧ h.getLayerForNode (a 0) = some (.dyn 2 pa) :=
  ⟨[.insertNode 2 (a 0) (some 5) at0], _, value (again stdNodes stdEdges (after ids [.insertNode 2 (a 0) (some 5) at0])),
    after_reached (by decide) (by decide +kernel), by decide +kernel, by decide +kernel, by decide +kernel⟩

/-- A reader that does not know the edge class reads the edge with default attributes and says nothing. -/
theorem C27_unknown_edge_class : ∃ ops g h Q, Reached ids ops g ∧ again stdNodes Q g = .ok h ∧
    (g.edgeObs 10 11).map (fun i => i.attrs.weight) = some 5 ∧ (h.edgeObs 10 11).map (fun i => i.attrs.weight) = some 0x3ff0000000000000 :=
  ⟨[.emplaceNode 2 10 at0, .emplaceNode 2 11 at0, .insertEdge 10 11 (some { weighted := true, weight := 5 })], _,
    value (again stdNodes ⟨[], List.nodup_nil⟩ (after ids [.emplaceNode 2 10 at0, .emplaceNode 2 11 at0, .insertEdge 10 11 (some { weighted := true, weight := 5 })])),
    ⟨[], List.nodup_nil⟩, after_reached (by decide) (by decide +kernel), by decide +kernel, by decide +kernel, by decide +kernel⟩

/-- A graph reset to no layers can be written but not read. -/
theorem C27_no_layers : ∃ ops g, Reached ids ops g ∧ returns (g.writeJson reader.toJArith stdNodes stdEdges true) = true ∧
    again stdNodes stdEdges g = .throw .domainError :=
  ⟨[.reset []], _, after_reached (by decide) (by decide +kernel), by decide +kernel, by decide +kernel⟩

end JsonLimits
end Verif
