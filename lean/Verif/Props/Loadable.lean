import Verif.Lemmas.Loadable2
import Verif.Props.Crash
import Verif.Props.OnlyText
/-! # C72: which saved JSON documents can be loaded -/

namespace Verif

section
variable {ids : List LayerId} {ops : List Op} {g : Graph} {E : JEnv} {W R' : Registry NodeClass} {V Q : Registry EdgeClass} {incl : Bool} {j : Json}

/-- **C72.** A document that was written can be read by a program that knows the classes if and only if the scalars of the graph are finite: its
edge weights, the probabilities of rooms, distances, quaternions and voxel positions. -/
theorem C72_loadable (hg : Reached ids ops g) (hs : g.Shaped) (hu : g.Nameable W R' V Q) (hj : g.writeJson E.toJArith W V incl = .ok j) :
    (∃ h, E.readGraph R' Q j = .ok h) ↔ g.FiniteScalars E.toJArith := by
  obtain ⟨hr, hw⟩ := hg.rep
  constructor
  · rintro ⟨h, hh⟩
    exact hr.loadable hw hs.slots hu hj hh
  · intro hf
    have ht := (C71_only_text hg hs.slots E.toJArith W V incl).1 ⟨j, hj⟩
    obtain ⟨j', h, _, h1, h2, _⟩ := C27_json_round_trip hg hs.layers (includeMesh := incl) (hf.printable hs ht) hu
    rw [hj] at h1
    cases h1
    exact ⟨h, h2⟩

/-- **C72.** Otherwise reading throws, in a build as in C50: the document was written without complaint and is lost. -/
theorem C72_otherwise_throws (hE : E.Guarded) (hg : Reached ids ops g) (hs : g.Shaped) (hu : g.Nameable W R' V Q)
    (hj : g.writeJson E.toJArith W V incl = .ok j) (hf : ¬ g.FiniteScalars E.toJArith) : ∃ e, E.readGraph R' Q j = .throw e := by
  have h1 := C50_any_document hE R' Q j (fun h hh => by
    rw [Graph.writeJson_header hj E] at hh
    cases hh
    decide +kernel)
  have h2 := C72_loadable hg hs hu hj
  cases hr : E.readGraph R' Q j with
  | ok h => exact absurd (h2.1 ⟨h, hr⟩) hf
  | throw e => exact ⟨e, rfl⟩
  | ub => exact absurd hr h1

/-- **C72, files.** After a JSON save that reported success, the file can be loaded if and only if the scalars are finite. -/
theorem C72_on_disk {H H' : Machine} {p q : Str} {d d' : FileSys} (hg : Reached ids ops g) (hs : g.Shaped)
    (hu : g.Nameable H.P.R H'.P.R H.P.Q H'.P.Q) (hJ : H'.J.toJArith = H.J.toJArith) (hL : H.L.ReadBy H'.L) (ht : Target p q true)
    (hsave : g.saveTo H .whole d p incl = (d', .ok ())) :
    (∃ h, Graph.loadFrom H' d' q = .ok h) ↔ g.FiniteScalars H.J.toJArith := by
  obtain ⟨j, hj, rfl⟩ := Graph.saveTo_json ht hsave
  obtain ⟨j0, _, h6, _⟩ := Graph.writeJson_text hj
  have hv := ht.verify
  have hq : p = q := by cases ht with | json _ => rfl
  rw [Graph.loadFrom_json (hq ▸ hv) (d.put_whole q _), hL j0 j h6]
  rw [← hJ] at hj
  have := C72_loadable hg hs hu hj
  rw [hJ] at this
  exact this
end

/-! ## The hypotheses can be met -/

namespace Sample
theorem jsShaped : (after ids jsOps).Shaped where
  layers := by decide +kernel
  plain := jsPrintable.plain
  slots := jsPrintable.slots
  typed := jsPrintable.typed
  sizes := by
    refine forall_nodes (P := fun _ i => i.attrs.Countable) jsReached ?_
    have : ∀ e ∈ ((Spec.init ids).after jsOps).nodes.toList, e.2.attrs = at0 ∨ e.2.attrs = at1 ∨ e.2.attrs = at3 := by decide +kernel
    intro e he
    rcases this e he with h | h | h <;> rw [h]
    · trivial
    · trivial
    · exact ⟨by decide, by decide, by decide⟩

/-- a room with a probability that is not a number, connected to an object -/
def nanOps : List Op :=
  [.emplaceNode 4 11 (.room { position := ⟨F64.nan, 0, 0⟩ } {} (OMap.insert ∅ (Str.lit "kitchen") F64.nan)), .emplaceNode 2 10 at0, .insertEdge 10 11 none]
theorem nanReached : Reached ids nanOps (after ids nanOps) := after_reached (by decide) (by decide +kernel)
theorem nanEach {P : NodeAttrs → Prop} (h1 : P (.room { position := ⟨F64.nan, 0, 0⟩ } {} (OMap.insert ∅ (Str.lit "kitchen") F64.nan))) (h2 : P at0) :
    ∀ n i, (after ids nanOps).nodeObs n = some i → P i.attrs := by
  refine forall_nodes (P := fun _ i => P i.attrs) nanReached ?_
  have : ∀ e ∈ ((Spec.init ids).after nanOps).nodes.toList,
      e.2.attrs = .room { position := ⟨F64.nan, 0, 0⟩ } {} (OMap.insert ∅ (Str.lit "kitchen") F64.nan) ∨ e.2.attrs = at0 := by decide +kernel
  intro e he
  rcases this e he with h | h <;> rw [h]
  · exact h1
  · exact h2
theorem nanShaped : (after ids nanOps).Shaped where
  layers := by decide +kernel
  plain := forall_nodes (P := fun _ i => i.key.dynamic = false → i.stamp = none) nanReached (by decide +kernel)
  slots := by decide +kernel
  typed := nanEach (P := NodeAttrs.Typed) (by refine ⟨?_, 0, 0, ?_⟩ <;> (unfold Matrix.Sized; decide)) trivial
  sizes := nanEach (P := NodeAttrs.Countable) ⟨by decide, by decide, by decide⟩ trivial
theorem nanNameable : (after ids nanOps).Nameable stdNodes stdNodes stdEdges stdEdges where
  nodesOnce := stdNodes_once
  edgesOnce := jsNameable.edgesOnce
  nodesFew := by decide
  edgesFew := by decide
  nodes := nanEach (P := fun a => ∃ name, Str.IsText name ∧ (name, a.cls) ∈ stdNodes.entries ∧ stdNodes.find? name = some a.cls)
    ⟨Str.lit "RoomNodeAttributes", by decide +kernel, by decide +kernel, by decide +kernel⟩
    ⟨Str.lit "NodeAttributes", by decide +kernel, by decide +kernel, by decide +kernel⟩
  edges := jsNameable.edges

/-- The sample graph, whose document can be read; it has a coordinate that is not a number. -/
example : ∃ j, (after ids jsOps).writeJson reader.toJArith stdNodes stdEdges true = .ok j ∧
    ((∃ h, reader.readGraph stdNodes stdEdges j = .ok h) ↔ (after ids jsOps).FiniteScalars reader.toJArith) := by
  obtain ⟨j, _, _, h1, _⟩ := C27_json_round_trip jsReached (by decide +kernel) jsPrintable jsNameable (includeMesh := true)
  exact ⟨j, h1, C72_loadable jsReached jsShaped jsNameable h1⟩

/-- The room: the save succeeds, and the file is lost. -/
theorem C72_saved_and_lost : ∃ d', (after ids nanOps).saveTo machine .whole oneFile (str "a.json") true = (d', .ok ()) ∧
    ¬ ∃ h, Graph.loadFrom machine d' (str "a.json") = .ok h := by
  have hr : GraphIO.returns ((after ids nanOps).writeJson machine.J.toJArith stdNodes stdEdges true) = true := by decide +kernel
  obtain ⟨j, hj⟩ := GraphIO.returns_ok hr
  have hsave : (after ids nanOps).saveTo machine .whole oneFile (str "a.json") true = (oneFile.put (str "a.json") (machine.L.print j) .whole, .ok ()) := by
    unfold Graph.saveTo
    rw [toJson.verify]
    simp only [if_true]
    rw [show (after ids nanOps).writeJson machine.J.toJArith machine.P.R machine.P.Q true = .ok j from hj]
  refine ⟨_, hsave, fun h => ?_⟩
  have hf := (C72_on_disk (H' := machine) nanReached nanShaped nanNameable rfl ToyJson.readBy toJson hsave).1 h
  have := hf.nodes 11 ⟨.static 4, none, .room { position := ⟨F64.nan, 0, 0⟩ } {} (OMap.insert ∅ (Str.lit "kitchen") F64.nan)⟩ (by decide +kernel)
  exact absurd (this.2 (Str.lit "kitchen", F64.nan) (by decide +kernel)) (by decide)
end Sample
end Verif
