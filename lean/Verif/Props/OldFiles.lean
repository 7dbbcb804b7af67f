import Verif.Lemmas.OldFormat
import Verif.Lemmas.OldJson
import Verif.Props.Json
import Verif.Props.Mesh
/-! # C49: files of older versions -/

namespace Verif

/-- **C49.** Attributes in the layout of a supported version are read under that version: flags that did not exist are off, old colours are
opaque, old boxes get the extent between their corners, all other members come back; and the reader stops right behind them. -/
theorem C49_old_attributes (v : Supported) (corners : V3f × V3f) (a : NodeAttrs) (ha : a.Typed) {E : Env} (hv : E.version = v.version)
    {bs pre post : List UInt8} (hw : v.fields corners a = .ok bs) (hb : E.buf = pre ++ bs ++ post) :
    Rd.fields a.cls E pre.length = .ok ((v.read E.fsub corners a).kept, pre.length + bs.length) :=
  Rd.RT.oldFields hv corners a ha bs pre post hw hb

/-- **C49.** A file that a supported version wrote for a graph is loaded: layer ids, nodes (attributes as above), edges, adjacency and mesh. -/
theorem C49_old_file {ids : List LayerId} {ops : List Op} {g : Graph} (v : Supported) (corners : NodeId → V3f × V3f)
    (hg : Reached ids ops g) (hs : g.Storable) (hne : g.layerIds ≠ []) {P P' : Prog} (hu : g.Understood P.R P'.R P.Q P'.Q)
    (ho : ∀ l, (P'.order l).Perm l) {includeMesh : Bool} {file : List UInt8} (hw : v.file corners P g includeMesh = .ok file)
    (hlen : file.length < 2 ^ 63) :
    ∃ h ops', Graph.loadBinary P' file hlen = .ok h ∧ Reached g.layerIds ops' h ∧ h.layerIds = g.layerIds ∧
      (∀ n, h.nodeObs n = (g.nodeObs n).map (fun i => { i with attrs := (v.read P'.fsub (corners n) i.attrs).kept })) ∧
      (∀ a b, h.edgeObs a b = g.edgeObs a b) ∧ (∀ n, h.adjObs n = g.adjObs n) ∧ h.mesh = (if includeMesh then g.mesh else none) := by
  obtain ⟨b1, b2, h1, h2, rfl⟩ := Rd.seq_ok hw
  have hd : (b1 ++ b2).drop b1.length = b2 := by simp
  have hh := C29_header_round_trip ⟨Str.lit "main", v.version⟩ b1 b2 (P'.env (b1 ++ b2) hlen FileHeader.current.version) h1 rfl
  obtain ⟨h, ops', r1, r2, r3, r4, r5, _⟩ := GraphIO.readAs hg hs hne hu ho (includeMesh := includeMesh) (bs := b2) (pre := []) (post := [])
    (E := P'.env ((b1 ++ b2).drop b1.length) (by simp at hlen ⊢; omega) v.version) (F := v.fmt P'.fsub corners) (Supported.reads rfl corners) h2
    (by rw [show (Prog.env P' ((b1 ++ b2).drop b1.length) _ v.version).buf = (b1 ++ b2).drop b1.length from rfl, hd]; simp)
  refine ⟨h, ops', ?_, r2, r3.layerIds, r3.nodes, r4, r3.adjacent, r5⟩
  unfold Graph.loadBinary
  rw [hh]
  simp only [Res.bind_ok, Option.getD_some]
  rw [show FileHeader.checkCompatibility ⟨Str.lit "main", v.version⟩ = .ok () by cases v <;> decide +kernel]
  simp only [Res.bind_ok]
  rw [show Rd.readGraph P'.R P'.Q P'.order _ 0 = .ok (h, [].length + b2.length) from r1]
  rfl

/-- **C49.** In a document of version 1.0.0 to 1.0.4, an object with the members that the version wrote for an attribute object (and whatever
others, in any order) is read with the same result, as far as JSON keeps bounding boxes and coordinates that are not finite. -/
theorem C49_old_json_attributes (v : Supported) (corners : V3f × V3f) (a : NodeAttrs) (ha : a.Typed) {E : JEnv} (hp : a.Printable E.toJArith)
    (hv : Supported.Uses E.version v) {members : List (Str × Json)}
    (hn : (members.map Prod.fst).Nodup) (hs : ∀ e ∈ Supported.jsonFields E.toJArith v corners a, e ∈ members)
    {j : Json} (ht : (Json.obj members).text = .ok j) :
    E.fields j a.cls = .ok (Supported.readJsonAttrs E.toJArith v corners a) := by
  obtain ⟨fs', h1, h2⟩ := bind_eq_ok (show (do let fs ← Json.textFields members; pure (Json.obj fs)) = Res.ok j by
    rw [← ht, Json.text])
  cases h2
  exact JRT.oldFields E hv ha hp h1 hn hs

/-! ## The hypotheses can be met -/

namespace Sample
/-- a program -/
def prog : Prog := { R := stdNodes, Q := stdEdges, order := id }

/-- A file in the layout of version 1.0.2; it is shorter than the same graph in the current layout. -/
example : Reached ids ioOps (after ids ioOps) ∧ (after ids ioOps).Storable ∧ (after ids ioOps).layerIds ≠ [] ∧
    (after ids ioOps).Understood prog.R prog.R prog.Q prog.Q ∧
    (match Supported.v102.file (fun _ => (⟨1, 1, 1⟩, ⟨2, 2, 2⟩)) prog (after ids ioOps) true, (after ids ioOps).saveBinary prog true with
      | .ok bs, .ok bs' => decide (400 < bs.length ∧ bs.length ≠ bs'.length ∧ bs.length < 2 ^ 63) | _, _ => false) = true :=
  ⟨ioReached, ioStorable, by decide +kernel, ioUnderstood, by decide +kernel⟩

/-- What becomes of an old node. -/
example : Supported.v102.read (fun a b => a - b) (⟨1, 1, 1⟩, ⟨3, 3, 3⟩) (.semantic { isPredicted := true } { color := ⟨1, 2, 3, 4⟩ }) =
    .semantic {} { color := ⟨1, 2, 3, 255⟩, bbox := { dims := ⟨2, 2, 2⟩ } } := rfl

/-- A document of version 1.0.1 with a further member. -/
example : NodeAttrs.Typed at3 ∧ at3.Printable reader.toJArith ∧ Supported.Uses (reader.under ⟨1, 0, 1⟩).version .v102 ∧
    (∃ j, (Json.obj ((Str.lit "type", .str (Str.lit "SemanticNodeAttributes")) ::
      Supported.jsonFields reader.toJArith .v102 (⟨1, 1, 1⟩, ⟨2, 2, 2⟩) at3)).text = .ok j) ∧
    (((Str.lit "type", Json.str []) :: Supported.jsonFields reader.toJArith .v102 (⟨1, 1, 1⟩, ⟨2, 2, 2⟩) at3).map Prod.fst).Nodup := by
  refine ⟨?_, ?_, .inr ⟨rfl, .inr rfl⟩, GraphIO.returns_ok (by decide +kernel), by decide +kernel⟩
  · refine ⟨?_, 0, 0, ?_⟩ <;> (unfold Matrix.Sized; decide)
  · exact ⟨by decide, fun _ => ⟨by decide, by decide, by decide, by decide⟩, by decide, by decide, by decide⟩
end Sample

/-! ## Meshes of old documents -/

namespace OldMesh
/-- a document of the time without headers: one vertex -/
def doc : Json := .obj [(Str.lit "vertices", .arr [.obj [(Str.lit "x", .num 0), (Str.lit "y", .num 0), (Str.lit "z", .num 0),
  (Str.lit "r", .uint 1), (Str.lit "g", .uint 2), (Str.lit "b", .uint 3)]]), (Str.lit "faces", .arr [])]

/-- A mesh in an old document is read, with flags that announce a time stamp and a label per vertex and without any; erasing
no vertex is undefined behaviour. -/
theorem C49_old_mesh_has_no_stamps : ∃ m, Sample.reader.meshDoc doc = .ok m ∧ m.points.length = 1 ∧ m.colors = [⟨1, 2, 3, 255⟩] ∧
    m.hasTimestamps = true ∧ m.hasLabels = true ∧ m.stamps = [] ∧ m.labels = [] ∧ ¬ m.Aligned ∧ m.eraseVertices ∅ = .ub :=
  ⟨{ points := [⟨0, 0, 0⟩], colors := [⟨1, 2, 3, 255⟩] }, by decide +kernel, by decide +kernel, by decide +kernel, by decide +kernel, by decide +kernel,
    by decide +kernel, by decide +kernel, fun h => absurd h.stamps (by decide +kernel), by decide +kernel⟩
end OldMesh

end Verif
