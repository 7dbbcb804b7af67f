import Verif.Lemmas.Gap
import Verif.Props.Writable
/-! # C74: what a file contains depends on the content of the graph only -/

namespace Verif

section
variable {ids ids' : List LayerId} {ops ops' : List Op} {g h : Graph}

/-- **C74.** Two graphs with the same content, however each came about, are written as the same bytes. -/
theorem C74_binary_canonical (hg : Reached ids ops g) (hh : Reached ids' ops' h) (hc : g.SameContent h)
    (hlen : ∀ d ∈ g.dynList, d.nodes.length < 2 ^ 32) (hlen' : ∀ d ∈ h.dynList, d.nodes.length < 2 ^ 32) (hn : ¬ g.Gap) (hn' : ¬ h.Gap)
    (W : Registry NodeClass) (V : Registry EdgeClass) (includeMesh : Bool) : g.write W V includeMesh = h.write W V includeMesh := by
  obtain ⟨rg, wg⟩ := hg.rep
  obtain ⟨rh, wh⟩ := hh.rep
  refine rg.write_congr rh hlen hlen' hn hn' (sameNodes_of (fun n => ?_) (fun _ _ => rfl)) (wg.edges_same wh fun a b => ?_) hc.layerIds V includeMesh
    (fun _ => hc.mesh)
  · rw [← rg.nodeObs wg, ← rh.nodeObs wh, hc.nodes]
  · rw [← rg.edgeObs wg, ← rh.edgeObs wh, hc.edges]

/-- **C74.** And as the same JSON document; here trajectories may have empty slots. -/
theorem C74_json_canonical (hg : Reached ids ops g) (hh : Reached ids' ops' h) (hc : g.SameContent h)
    (hlen : ∀ d ∈ g.dynList, d.nodes.length < 2 ^ 32) (hlen' : ∀ d ∈ h.dynList, d.nodes.length < 2 ^ 32)
    (F : JArith) (W : Registry NodeClass) (V : Registry EdgeClass) (includeMesh : Bool) : g.writeJson F W V includeMesh = h.writeJson F W V includeMesh := by
  obtain ⟨rg, wg⟩ := hg.rep
  obtain ⟨rh, wh⟩ := hh.rep
  refine rg.writeJson_congr rh hlen hlen' F (sameNodes_of (fun n => ?_) (fun _ _ => rfl)) (wg.edges_same wh fun a b => ?_) hc.layerIds V includeMesh
    (fun _ => hc.mesh)
  · rw [← rg.nodeObs wg, ← rh.nodeObs wh, hc.nodes]
  · rw [← rg.edgeObs wg, ← rh.edgeObs wh, hc.edges]

/-- **C74, files.** Saving either of them under any name, on any disk, with any failure of the disk, does the same. -/
theorem C74_files_canonical (hg : Reached ids ops g) (hh : Reached ids' ops' h) (hc : g.SameContent h)
    (hlen : ∀ d ∈ g.dynList, d.nodes.length < 2 ^ 32) (hlen' : ∀ d ∈ h.dynList, d.nodes.length < 2 ^ 32) (hn : ¬ g.Gap) (hn' : ¬ h.Gap)
    (H : Machine) (f : Fate) (d : FileSys) (p : Str) (includeMesh : Bool) : g.saveTo H f d p includeMesh = h.saveTo H f d p includeMesh := by
  unfold Graph.saveTo Graph.saveBinary
  rw [C74_binary_canonical hg hh hc hlen hlen' hn hn', C74_json_canonical hg hh hc hlen hlen']

/-- **C74.** A trajectory that was only ever appended to has no empty slot. -/
theorem C74_appended_no_gap (hg : Reached ids ops g) (hlen : ∀ d ∈ g.dynList, d.nodes.length < 2 ^ 32) (ha : ∀ op ∈ ops, op.appends = true) : ¬ g.Gap := by
  obtain ⟨rg, _⟩ := hg.rep
  exact rg.no_gap hlen (Spec.full_after ids ops hg.ok ha)

/-- **C74.** Loading a file and saving the graph again gives the same file, byte for byte: the copy can be represented in the format, and every
further generation of copies is written like the first. -/
theorem C74_resaved_identical (hg : Reached ids ops g) (hs : g.Storable) (hne : g.layerIds ≠ []) {P P' : Prog} (hu : g.Understood P.R P'.R P.Q P'.Q)
    (ho : ∀ l, (P'.order l).Perm l) {includeMesh : Bool} {file : List UInt8} (hw : g.saveBinary P includeMesh = .ok file)
    (hlen : file.length < 2 ^ 63) :
    ∃ h, Graph.loadBinary P' file hlen = .ok h ∧ h.Storable ∧ h.saveBinary P includeMesh = .ok file := by
  obtain ⟨b1, b2, h1, h2, rfl⟩ := Rd.seq_ok hw
  obtain ⟨h, ops', e1, e2, e3, e4, e5⟩ := C25_file_round_trip hg hs hne hu ho hw hlen
  have hd : (b1 ++ b2).drop b1.length = b2 := by simp
  -- the same graph, with what is known of the calls of the reader
  obtain ⟨h', ops1, r1, r2, r3, r4, r5, r6⟩ := GraphIO.readAs hg hs hne hu ho (includeMesh := includeMesh) (bs := b2) (pre := []) (post := [])
    (E := P'.env ((b1 ++ b2).drop b1.length) (by simp at hlen ⊢; omega) FileHeader.current.version) (F := Fmt.current) (Fmt.reads_current rfl)
    (by rw [Graph.writeAs_current]; exact h2)
    (by rw [show (Prog.env P' ((b1 ++ b2).drop b1.length) _ FileHeader.current.version).buf = (b1 ++ b2).drop b1.length from rfl, hd]; simp)
  have same : h = h' := by
    have hh := C29_header_round_trip FileHeader.current b1 b2 (P'.env (b1 ++ b2) hlen FileHeader.current.version) h1 rfl
    unfold Graph.loadBinary at e1
    rw [hh] at e1
    simp only [Res.bind_ok, Option.getD_some] at e1
    rw [show FileHeader.current.checkCompatibility = .ok () by decide +kernel] at e1
    simp only [Res.bind_ok] at e1
    rw [show Rd.readGraph P'.R P'.Q P'.order _ 0 = .ok (h', [].length + b2.length) from r1] at e1
    cases e1
    rfl
  subst same
  obtain ⟨rg, wg⟩ := hg.rep
  obtain ⟨rh, wh⟩ := r2.rep
  have hnodes : ∀ n, ((Spec.init g.layerIds).after ops1).nodes.find? n = (((Spec.init ids).after ops).nodes.find? n).map NodeInfo.kept := by
    intro n
    rw [← rh.nodeObs wh, ← rg.nodeObs wg, e3.nodes]
  have hsame := sameNodes_kept (W := P.R) hnodes
  have hn : ¬ g.Gap := fun ⟨d, hd, hn⟩ => (hs.slots d hd).2 hn
  obtain ⟨hl', hn'⟩ := rg.slots_again rh (Spec.tight_after _ ops1 r2.ok r6) (Spec.tops_after (Spec.tops_empty rfl) r2.ok) (fun d hd => (hs.slots d hd).1) hn hsame.key
  have kept : ∀ n i, h.nodeObs n = some i → ∃ j, g.nodeObs n = some j ∧ i = j.kept := by
    intro n i hi
    rw [e3.nodes] at hi
    obtain ⟨j, hj, rfl⟩ := Option.map_eq_some_iff.1 hi
    exact ⟨j, hj, rfl⟩
  refine ⟨h, e1, ⟨?_, ?_, fun d hd => ⟨hl' d hd, fun hx => hn' ⟨d, hd, hx⟩⟩, ?_⟩, ?_⟩
  · intro n i hi
    obtain ⟨j, hj, rfl⟩ := kept n i hi
    exact hs.plain n j hj
  · intro n i hi
    obtain ⟨j, hj, rfl⟩ := kept n i hi
    rw [e3.layerIds]
    exact hs.layers n j hj
  · intro n i hi
    obtain ⟨j, hj, rfl⟩ := kept n i hi
    have := hs.typed n j hj
    show j.attrs.kept.Typed
    cases hj : j.attrs <;> rw [hj] at this <;> exact this
  · have hm : includeMesh = true → g.mesh = h.mesh := by
      rintro rfl
      exact e5.symm
    have := rg.write_congr rh (fun d hd => (hs.slots d hd).1) hl' hn hn' hsame (wg.edges_same wh fun a b => by rw [← rg.edgeObs wg, ← rh.edgeObs wh, e4])
      e3.layerIds.symm P.Q includeMesh hm
    unfold Graph.saveBinary
    rw [← this]
    exact hw
end

/-! ## The hypotheses can be met -/

namespace Sample
/-- The graph of `ioOps`, built in another order, with detours: a node that is removed, an edge that is removed, attributes that are replaced,
another mesh before, a second trajectory that stays empty. -/
def detourOps : List Op :=
  [.setMesh none, .createDyn 2 99, .emplaceNode 4 30 at0, .emplaceNode 3 20 at0, .emplaceNode 2 11 at1, .emplaceNode 2 10 at0, .insertEdge 10 30 none,
   .removeNode 30, .emplaceDyn 2 pa 100 at0 true, .emplaceDyn 2 pa 200 at2 true,
   .insertEdge (a 0) 20 none, .setNodeAttrs 11 at2, .setNodeAttrs 20 at1, .insertParentEdge 20 10 none, .insertEdge 11 20 none, .removeEdge 20 11,
   .insertEdge 10 11 none, .setEdgeAttrs 11 10 { weighted := true, weight := 5 },
   .setMesh (some { points := [⟨1, 2, 3⟩] , colors := [{}], stamps := [0], firstSeen := [1], labels := [0] })]
theorem detourReached : Reached ids detourOps (after ids detourOps) := after_reached (by decide) (by decide +kernel)
theorem detourSame : (after ids ioOps).SameContent (after ids detourOps) := by
  obtain ⟨r1, w1⟩ := ioReached.rep
  obtain ⟨r2, w2⟩ := detourReached.rep
  have e1 : ((Spec.init ids).after ioOps).nodes = ((Spec.init ids).after detourOps).nodes := by decide +kernel
  have e2 : ((Spec.init ids).after ioOps).edges = ((Spec.init ids).after detourOps).edges := by decide +kernel
  exact ⟨by decide +kernel, fun n => by rw [r1.nodeObs w1, r2.nodeObs w2, e1],
    fun a b => by rw [r1.edgeObs w1, r2.edgeObs w2]; unfold Spec.edge?; rw [e2], by decide +kernel⟩
theorem detourSlots : ∀ d ∈ (after ids detourOps).dynList, d.nodes.length < 2 ^ 32 ∧ none ∉ d.nodes := by decide +kernel
example : (after ids ioOps).write stdNodes stdEdges true = (after ids detourOps).write stdNodes stdEdges true :=
  C74_binary_canonical ioReached detourReached detourSame (fun d hd => (ioStorable.slots d hd).1) (fun d hd => (detourSlots d hd).1)
    (fun ⟨d, hd, hn⟩ => (ioStorable.slots d hd).2 hn) (fun ⟨d, hd, hn⟩ => (detourSlots d hd).2 hn) _ _ _
example (F : JArith) : (after ids ioOps).writeJson F stdNodes stdEdges true = (after ids detourOps).writeJson F stdNodes stdEdges true :=
  C74_json_canonical ioReached detourReached detourSame (fun d hd => (ioStorable.slots d hd).1) (fun d hd => (detourSlots d hd).1) _ _ _ _
example (f : Fate) (d : FileSys) (p : Str) : (after ids ioOps).saveTo machine f d p true = (after ids detourOps).saveTo machine f d p true :=
  C74_files_canonical ioReached detourReached detourSame (fun d hd => (ioStorable.slots d hd).1) (fun d hd => (detourSlots d hd).1)
    (fun ⟨d, hd, hn⟩ => (ioStorable.slots d hd).2 hn) (fun ⟨d, hd, hn⟩ => (detourSlots d hd).2 hn) _ _ _ _ _
/-- The histories are different: the graphs are not the same object. -/
example : after ids ioOps ≠ after ids detourOps := by decide +kernel
example : ¬ (after ids ioOps).Gap :=
  C74_appended_no_gap ioReached (fun d hd => (ioStorable.slots d hd).1) (by decide +kernel)
/-- The file of the sample graph, loaded and saved again. -/
example : ∃ file, (after ids ioOps).saveBinary machine.P true = .ok file ∧ ∃ hl h, Graph.loadBinary machine.P file hl = .ok h ∧ h.Storable ∧
    h.saveBinary machine.P true = .ok file := by
  obtain ⟨bs, h1, h2, _⟩ := ioSaved
  exact ⟨bs, h1, h2, C74_resaved_identical ioReached ioStorable (by decide +kernel) (P := machine.P) (P' := machine.P) ioUnderstood (fun l => .refl l) h1 h2⟩
end Sample
end Verif
