import Verif.Lemmas.OnlyText2
import Verif.Props.Json
/-! # C71: which graphs can be written as JSON -/

namespace Verif

section
variable {ids : List LayerId} {ops : List Op} {g : Graph}

/-- **C71.** A graph is written as JSON exactly if all its strings are text; whatever its numbers are, and with or without its mesh. -/
theorem C71_only_text (hg : Reached ids ops g) (hlen : ∀ d ∈ g.dynList, d.nodes.length < 2 ^ 32) (F : JArith) (W : Registry NodeClass)
    (V : Registry EdgeClass) (includeMesh : Bool) : (∃ j, g.writeJson F W V includeMesh = .ok j) ↔ g.OnlyText W V := by
  obtain ⟨hr, hw⟩ := hg.rep
  obtain ⟨h1, h2⟩ := hr.prints hw hlen F W V includeMesh
  refine ⟨fun h => ?_, h1⟩
  by_cases ht : g.OnlyText W V
  · exact ht
  · obtain ⟨j, hj⟩ := h
    rw [h2 ht] at hj
    cases hj

/-- **C71.** Otherwise the call throws the library's exception: no undefined behaviour, no other error. -/
theorem C71_otherwise_throws (hg : Reached ids ops g) (hlen : ∀ d ∈ g.dynList, d.nodes.length < 2 ^ 32) (F : JArith) (W : Registry NodeClass)
    (V : Registry EdgeClass) (includeMesh : Bool) (h : ¬ g.OnlyText W V) : g.writeJson F W V includeMesh = .throw .json := by
  obtain ⟨hr, hw⟩ := hg.rep
  exact (hr.prints hw hlen F W V includeMesh).2 h

/-- **C71.** A mesh can always be written. -/
theorem C71_mesh (F : JArith) (m : Mesh) : ∃ j, (F.mesh m).text = .ok j := (Json.prints (F.mesh m)).1 (F.clean_mesh m)
end

namespace Sample
/-- A graph with nodes of several classes, a trajectory, edges and a mesh. -/
example : ∃ j, (after ids jsOps).writeJson reader.toJArith stdNodes stdEdges true = .ok j :=
  (C71_only_text jsReached jsPrintable.slots _ _ _ _).2 {
    classes := forall_nodes (P := fun _ i => Str.IsText (stdNodes.nameOf i.attrs.cls)) jsReached (by decide +kernel)
    strings := forall_nodes (P := fun _ i => ∀ s ∈ i.attrs.strings, Str.IsText s) jsReached (by decide +kernel)
    edges := fun _ _ _ _ => by decide +kernel }

/-- the name of a room class in Latin-1 -/
def latinOps : List Op := [.emplaceNode 2 10 (.semantic {} { name := Str.lit "Küche" }), .emplaceNode 4 11 (.room {} {} (OMap.insert ∅ [0x4B, 0xFC, 0x63, 0x68, 0x65] 0))]
/-- A name in UTF-8 is fine; the Latin-1 name of a class of a room is not. -/
example : (after ids latinOps).writeJson reader.toJArith stdNodes stdEdges true = .throw .json := by
  refine C71_otherwise_throws (ids := ids) (ops := latinOps) (after_reached (by decide) (by decide +kernel)) (by decide +kernel) _ _ _ _ fun h => ?_
  have := h.strings 11 ⟨.static 4, none, .room {} {} (OMap.insert ∅ [0x4B, 0xFC, 0x63, 0x68, 0x65] 0)⟩ (by decide +kernel) [0x4B, 0xFC, 0x63, 0x68, 0x65]
    (by decide +kernel)
  revert this
  decide +kernel
end Sample
end Verif
