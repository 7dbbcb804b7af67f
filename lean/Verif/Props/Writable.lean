import Verif.Lemmas.Writable
import Verif.Props.Crash
import Verif.Props.Removal
/-! # C73: which graphs can be written in the binary format -/

namespace Verif

section
variable {ids : List LayerId} {ops : List Op} {g : Graph}

/-- **C73.** A graph is written in the binary format exactly if all its lengths are numbers of 32 bits and no trajectory has an empty slot;
whatever its numbers and strings are. -/
theorem C73_binary_written (hg : Reached ids ops g) (hlen : ∀ d ∈ g.dynList, d.nodes.length < 2 ^ 32) (ht : ∀ n i, g.nodeObs n = some i → i.attrs.Typed)
    (W : Registry NodeClass) (V : Registry EdgeClass) (includeMesh : Bool) :
    (∃ bs, g.write W V includeMesh = .ok bs) ↔ g.Fits W V includeMesh ∧ ¬ g.Gap := by
  obtain ⟨hr, hw⟩ := hg.rep
  constructor
  · rintro ⟨bs, hb⟩
    have hn : ¬ g.Gap := fun h => (hr.write_gap hw hlen ht W V includeMesh h).2 bs hb
    refine ⟨?_, hn⟩
    by_cases hf : g.Fits W V includeMesh
    · exact hf
    · rw [(hr.writes hw hlen ht W V includeMesh hn).2 hf] at hb
      cases hb
  · rintro ⟨hf, hn⟩
    exact (hr.writes hw hlen ht W V includeMesh hn).1 hf

/-- **C73.** A length that does not fit is reported. -/
theorem C73_too_long_throws (hg : Reached ids ops g) (hlen : ∀ d ∈ g.dynList, d.nodes.length < 2 ^ 32) (ht : ∀ n i, g.nodeObs n = some i → i.attrs.Typed)
    (W : Registry NodeClass) (V : Registry EdgeClass) (includeMesh : Bool) (hn : ¬ g.Gap) (hf : ¬ g.Fits W V includeMesh) :
    g.write W V includeMesh = .throw .domainError := by
  obtain ⟨hr, hw⟩ := hg.rep
  exact (hr.writes hw hlen ht W V includeMesh hn).2 hf

/-- **C73.** An empty slot is not: a null pointer is dereferenced. -/
theorem C73_gap_faults (hg : Reached ids ops g) (hlen : ∀ d ∈ g.dynList, d.nodes.length < 2 ^ 32) (ht : ∀ n i, g.nodeObs n = some i → i.attrs.Typed)
    (W : Registry NodeClass) (V : Registry EdgeClass) (includeMesh : Bool) (hn : g.Gap) (hf : g.Fits W V includeMesh) :
    g.write W V includeMesh = .ub := by
  obtain ⟨hr, hw⟩ := hg.rep
  exact (hr.write_gap hw hlen ht W V includeMesh hn).1 hf

/-- **C73.** Removing any node of a trajectory leaves an empty slot. -/
theorem C73_removal_leaves_gap (hg : Reached ids ops g) (n : NodeId) (hc : g.CrossFree n) {i : NodeInfo} (hi : g.nodeObs n = some i)
    (hd : i.key.dynamic = true) : ∃ g', g.removeNode n = .ok (g', true) ∧ Reached ids (ops ++ [.removeNode n]) g' ∧ g'.Gap := by
  obtain ⟨hr, hw⟩ := hg.rep
  generalize hσ : (Spec.init ids).after ops = σ at hr hw
  have hok : (Op.removeNode n).ok σ = true := hr.crossFree hw hc
  obtain ⟨g', heq, hreach, hr', hw', _⟩ := hg.mut (.removeNode n) hσ hok (r := g.removeNode n) (s := σ.removeNode n) rfl rfl
  rw [hr.nodeObs hw] at hi
  have hcn : σ.nodes.contains n = true := OMap.contains_eq_true.2 ⟨i, hi⟩
  have e1 : σ.removeNode n = ((σ.bridge n).dropNode n, true) := by simp [Spec.removeNode, hcn]
  rw [e1] at heq hr'
  refine ⟨g', heq, hreach, ?_⟩
  obtain ⟨l, p, hk⟩ : ∃ l p, i.key = .dyn l p := by
    cases h : i.key with
    | static l => rw [h] at hd; cases hd
    | dyn l p => exact ⟨l, p, rfl⟩
  obtain ⟨_, _, hm, htop⟩ := hr.slot_of hi hk
  have hkey : ((σ.bridge n).dropNode n).hasKey (.dyn l p) = σ.hasKey (.dyn l p) := by
    show ((σ.bridge n).dyn.contains (l, p)) = _
    rw [σ.bridge_dyn n]
    rfl
  have hh : (g'.view.info (.dyn l p)).isSome = true := by
    rw [RV.has hr', hkey]
    have := (hw.node n i hi).1
    rw [hk] at this
    exact this
  have : ∃ d, g'.dynLayer? l p = some d := by
    simp only [Graph.view, Graph.layerAt?, Option.isSome_map] at hh
    exact Option.isSome_iff_exists.1 hh
  obtain ⟨d', hd'⟩ := this
  refine hr'.gap_of hd' hm ?_ ?_
  · have : ((σ.bridge n).dropNode n).dynInfo l p = σ.dynInfo l p := by
      show ((σ.bridge n).dyn.find? (l, p)).getD {} = _
      rw [σ.bridge_dyn n]
      rfl
    rw [this]
    exact htop
  · show ((σ.bridge n).nodes.erase n).find? n = none
    rw [OMap.find?_erase]
    simp

/-- **C73, files.** A graph that the format can represent and whose lengths fit is saved, and any program that knows the classes loads it. -/
theorem C73_saved_and_loaded {H H' : Machine} {p q : Str} {d : FileSys} {incl : Bool} (hg : Reached ids ops g) (hs : g.Storable)
    (hf : g.Fits H.P.R H.P.Q incl) (hne : g.layerIds ≠ []) (hu : g.Understood H.P.R H'.P.R H.P.Q H'.P.Q) (ho : ∀ l, (H'.P.order l).Perm l)
    (ht : Target p q false) (hp : ¬ NoFilename p) :
    ∃ d', g.saveTo H .whole d p incl = (d', .ok ()) ∧ ((d'.get q).length < 2 ^ 63 → ∃ h ops', Graph.loadFrom H' d' q = .ok h ∧
      Reached g.layerIds ops' h ∧ h.Mirrors g ∧ (∀ a b, h.edgeObs a b = g.edgeObs a b) ∧ h.mesh = (if incl then g.mesh else none)) := by
  obtain ⟨bs, hb⟩ := (C73_binary_written hg (fun d hd => (hs.slots d hd).1) hs.typed H.P.R H.P.Q incl).2
    ⟨hf, fun ⟨d, hd, hn⟩ => (hs.slots d hd).2 hn⟩
  obtain ⟨hd, hh⟩ : ∃ bs, FileHeader.current.write = .ok bs := GraphIO.returns_ok (by decide +kernel)
  have hsave : g.saveBinary H.P incl = .ok (hd ++ bs) := by
    unfold Graph.saveBinary
    rw [hh, hb]
    rfl
  have := Graph.saveTo_of_binary (f := .whole) (d := d) ht hsave
  exact ⟨_, this, fun hl => C65_graph_binary hg hs hne hu ho ht hp this hl⟩
end

/-! ## The hypotheses can be met -/

namespace Sample
theorem ioFits : (after ids ioOps).Fits stdNodes stdEdges true where
  layers := by decide +kernel
  nodeClasses := by decide +kernel
  edgeClasses := by decide +kernel
  nodes := forall_nodes (P := fun _ i => ∀ k ∈ i.attrs.lengths, k < 2 ^ 32) ioReached (by decide +kernel)
  mesh := by
    have : ∀ m ∈ (after ids ioOps).mesh, ∀ k ∈ m.lengths, k < 2 ^ 32 := by decide +kernel
    exact fun m hm _ => this m hm

/-- The sample graph is written, saved and loaded. -/
example : ∃ bs, (after ids ioOps).write stdNodes stdEdges true = .ok bs :=
  (C73_binary_written ioReached (fun d hd => (ioStorable.slots d hd).1) ioStorable.typed _ _ _).2
    ⟨ioFits, fun ⟨d, hd, hn⟩ => (ioStorable.slots d hd).2 hn⟩
example : ∃ d', (after ids ioOps).saveTo machine .whole oneFile (str "dir/a") true = (d', .ok ()) := by
  obtain ⟨d', h, _⟩ := C73_saved_and_loaded (H := machine) (H' := machine) (d := oneFile) ioReached ioStorable ioFits (by decide +kernel) ioUnderstood
    (fun l => .refl l) toBin named
  exact ⟨d', h⟩

/-- Two steps of a trajectory; the first is removed. -/
def gapOps : List Op := [.emplaceNode 2 10 at0, .emplaceDyn 2 pa 100 at0 true, .emplaceDyn 2 pa 200 at0 true]
theorem gapReached : Reached ids gapOps (after ids gapOps) := after_reached (by decide) (by decide +kernel)
theorem gapCross : (after ids gapOps).CrossFree (a 0) := by
  obtain ⟨hr, hw⟩ := gapReached.rep
  have hall : ∀ e ∈ ((Spec.init ids).after gapOps).edges.toList, ((Spec.init ids).after gapOps).key? e.1.k1 = ((Spec.init ids).after gapOps).key? e.1.k2 := by
    decide +kernel
  intro m kn km h1 h2 h3 _
  rw [hr.hasEdge hw] at h1
  rw [hr.getLayerForNode] at h2 h3
  obtain ⟨e, he⟩ := OMap.contains_eq_true.1 (Res.ok.inj h1)
  have := hall _ (OMap.mem_toList.2 he)
  unfold EdgeKey.of at this
  dsimp only at this
  repeat' split at this
  all_goals first
    | (rw [h2, h3] at this; exact (Option.some.inj this).symm)
    | (rw [h3, h2] at this; exact Option.some.inj this)
    | (rename_i c1 c2; exact absurd c1 (UInt64.lt_asymm c2))
    | (rename_i c1 c2
       have : a 0 = m := UInt64.le_antisymm (UInt64.not_lt.1 c1) (UInt64.not_lt.1 c2)
       rw [← this, h2] at h3
       exact (Option.some.inj h3).symm)
example : ∃ g', (after ids gapOps).removeNode (a 0) = .ok (g', true) ∧ Reached ids (gapOps ++ [.removeNode (a 0)]) g' ∧ g'.Gap :=
  C73_removal_leaves_gap gapReached (a 0) gapCross (i := ⟨.dyn 2 pa, some 100, at0⟩) (by decide +kernel) rfl
/-- Writing it faults. -/
example : (after ids (gapOps ++ [.removeNode (a 0)])).write stdNodes stdEdges true = .ub := by
  have hr : Reached ids (gapOps ++ [.removeNode (a 0)]) (after ids (gapOps ++ [.removeNode (a 0)])) := after_reached (by decide) (by decide +kernel)
  refine C73_gap_faults hr (by decide +kernel) ?_ _ _ _ ?_ ⟨by decide +kernel, by decide +kernel, by decide +kernel, ?_, ?_⟩
  · refine forall_nodes (P := fun _ i => i.attrs.Typed) hr ?_
    have : ∀ e ∈ ((Spec.init ids).after (gapOps ++ [.removeNode (a 0)])).nodes.toList, e.2.attrs = at0 := by decide +kernel
    intro e he
    rw [this e he]
    trivial
  · have : ∃ d ∈ (after ids (gapOps ++ [.removeNode (a 0)])).dynList, none ∈ d.nodes := by decide +kernel
    exact this
  · exact forall_nodes (P := fun _ i => ∀ k ∈ i.attrs.lengths, k < 2 ^ 32) hr (by decide +kernel)
  · have : (after ids (gapOps ++ [.removeNode (a 0)])).mesh = none := by decide +kernel
    intro m hm
    rw [this] at hm
    cases hm
end Sample
end Verif
