import Verif.Lemmas.Disk
import Verif.Lemmas.Json2
/-!
# C65: saving and loading files, end to end
-/

namespace Verif
open Rd

section
variable {ids : List LayerId} {ops : List Op} {g : Graph} {m : Mesh} {H H' : Machine} {p q : Str} {d d' : FileSys} {incl : Bool} {f : Fate}

private theorem Target.json_eq {p q : Str} (h : Target p q true) : p = q := by cases h with | json _ => rfl

/-- **C65, graphs, binary.** A graph that the format can represent is saved as `path.sparkdsg` or under the path given, and any program that
knows the attribute classes loads it from there: the same layers, nodes, edges and adjacency, with the attributes that a file keeps, and the
mesh if it was asked for. -/
theorem C65_graph_binary (hg : Reached ids ops g) (hs : g.Storable) (hne : g.layerIds ≠ []) (hu : g.Understood H.P.R H'.P.R H.P.Q H'.P.Q)
    (ho : ∀ l, (H'.P.order l).Perm l) (ht : Target p q false) (hf : ¬ NoFilename p) (hsave : g.saveTo H .whole d p incl = (d', .ok ()))
    (hlen : (d'.get q).length < 2 ^ 63) :
    ∃ h ops', Graph.loadFrom H' d' q = .ok h ∧ Reached g.layerIds ops' h ∧ h.Mirrors g ∧
      (∀ a b, h.edgeObs a b = g.edgeObs a b) ∧ h.mesh = (if incl then g.mesh else none) := by
  obtain ⟨bs, hb, rfl⟩ := Graph.saveTo_binary ht hsave
  have hd := d.put_whole q bs
  have hl : bs.length < 2 ^ 63 := by rw [FileSys.get, hd] at hlen; exact hlen
  rw [Graph.loadFrom_binary (ht.again hf) hd hl]
  exact C25_file_round_trip hg hs hne hu ho hb hl

/-- **C65, graphs, JSON.** The same for JSON files, with what a document keeps of the attributes. -/
theorem C65_graph_json (hg : Reached ids ops g) (hne : g.layerIds ≠ []) (hp : g.Printable H.J.toJArith)
    (hu : g.Nameable H.P.R H'.P.R H.P.Q H'.P.Q) (hJ : H'.J.toJArith = H.J.toJArith) (hL : H.L.ReadBy H'.L) (ht : Target p q true) :
    ∃ d', g.saveTo H .whole d p incl = (d', .ok ()) ∧ ∃ h ops', Graph.loadFrom H' d' q = .ok h ∧ Reached g.layerIds ops' h ∧
      h.Copies H.J.toJArith g ∧ h.mesh = (if incl then g.mesh.map Mesh.printed else none) := by
  rw [← hJ] at hp
  obtain ⟨j, h, ops', h1, h2, h3, h4, h5⟩ := C27_json_round_trip hg hne (E := H'.J) hp hu
  rw [hJ] at h1 h4
  obtain ⟨j0, fs, h6, h7⟩ := Graph.writeJson_text h1
  have hv := ht.verify
  have hq : p = q := ht.json_eq
  refine ⟨d.put q (H.L.print j) .whole, ?_, h, ops', ?_, h3, h4, h5⟩
  · unfold Graph.saveTo
    rw [hv]
    simp only [if_true, h1]
  · rw [Graph.loadFrom_json (hq ▸ hv) (d.put_whole q _), hL j0 j h6]
    exact h2

/-- **C65, meshes.** A mesh comes back exactly from a binary file whatever its contents; from a JSON file with NaN for the coordinates that are
not finite. -/
theorem C65_mesh_binary (ht : Target p q false) (hf : ¬ NoFilename p) (hsave : m.saveTo H .whole d p = (d', .ok ()))
    (hlen : (d'.get q).length < 2 ^ 63) : Mesh.loadFrom H' d' q = .ok m := by
  obtain ⟨bs, hb, rfl⟩ := Mesh.saveTo_binary ht hsave
  have hd := d.put_whole q bs
  have hl : bs.length < 2 ^ 63 := by rw [FileSys.get, hd] at hlen; exact hlen
  rw [Mesh.loadFrom_binary (ht.again hf) hd hl]
  exact Mesh.loadBinary_saved hb hl

theorem C65_mesh_json (hJ : H'.J.toJArith = H.J.toJArith) (hL : H.L.ReadBy H'.L) (ht : Target p q true) :
    ∃ d', m.saveTo H .whole d p = (d', .ok ()) ∧ Mesh.loadFrom H' d' q = .ok m.printed := by
  obtain ⟨j, h1, h2⟩ := JRT.meshDoc H'.J m
  rw [hJ] at h1
  have hv := ht.verify
  have hq : p = q := ht.json_eq
  refine ⟨d.put q (H.L.print j) .whole, ?_, ?_⟩
  · unfold Mesh.saveTo
    rw [hv]
    simp only [if_true, h1]
  · rw [Mesh.loadFrom_json (hq ▸ hv) (d.put_whole q _), hL _ j h1]
    exact h2

/-- **C65, other files.** Whatever happens while saving, only the one file is touched; a path with another extension is refused and nothing
is touched at all. -/
theorem C65_other_files :
    (∀ b, Target p q b → ∀ r, r ≠ q → (g.saveTo H f d p incl).1 r = d r ∧ (m.saveTo H f d p).1 r = d r) ∧
    ((∀ q b, ¬ Target p q b) → g.saveTo H f d p incl = (d, .throw .runtimeError) ∧ m.saveTo H f d p = (d, .throw .runtimeError)) := by
  constructor
  · intro b ht r hr
    unfold Graph.saveTo Mesh.saveTo
    rw [ht.verify]
    cases b with
    | true =>
      simp only [if_true]
      constructor <;> split <;> exact d.put_other _ f hr
    | false =>
      simp only [Bool.false_eq_true, if_false]
      constructor <;> split <;> first | rfl | exact d.put_other _ f hr
  · intro hn
    obtain ⟨h1, h2, h3, h4⟩ := C30_file_type p
    have hv : verifyFileExtension p = .throw .runtimeError := by
      have hx : ∃ e, HasExt p e := Classical.byContradiction (fun h => hn _ _ (.appended (fun e he => h ⟨e, he⟩)))
      obtain ⟨e, he⟩ := hx
      refine h4 e he ?_
      intro hm
      simp only [List.mem_cons, List.not_mem_nil, or_false] at hm
      rcases hm with rfl | rfl | rfl
      · exact hn _ _ (.json (.inl he))
      · exact hn _ _ (.json (.inr he))
      · exact hn _ _ (.binary he)
    unfold Graph.saveTo Mesh.saveTo
    rw [hv]
    exact ⟨rfl, rfl⟩

/-- **C65, a save that throws.** A binary save that throws has touched no file. A JSON save that throws has emptied the file, if it could open
it: what was there is gone, and loading it throws. -/
theorem C65_failed_save :
    (Target p q false → (g.saveTo H f d p incl).2 ≠ .ok () → (g.saveTo H f d p incl).1 = d) ∧
    (Target p q true → (g.saveTo H f d p incl).2 ≠ .ok () → f ≠ .unopened → (g.saveTo H f d p incl).1 q = some [] ∧
      (H'.L.parse [] = none → Graph.loadFrom H' (g.saveTo H f d p incl).1 q = .throw .json)) := by
  constructor
  · intro ht hr
    unfold Graph.saveTo at hr ⊢
    rw [ht.verify] at hr ⊢
    simp only [Bool.false_eq_true, if_false] at hr ⊢
    split
    · rename_i bs hb; rw [hb] at hr; exact absurd rfl hr
    · rfl
    · rfl
  · intro ht hr hf
    have hv := ht.verify
    have hq : p = q := ht.json_eq
    have key : (g.saveTo H f d p incl).1 q = some [] := by
      unfold Graph.saveTo at hr ⊢
      rw [hv] at hr ⊢
      simp only [if_true] at hr ⊢
      have e : ∀ f, f ≠ .unopened → d.put q [] f q = some [] := by
        intro f hf
        cases f with
        | unopened => exact absurd rfl hf
        | cut k => rw [FileSys.put_cut]; simp
        | whole => exact d.put_whole q []
      split
      · rename_i j hj; rw [hj] at hr; exact absurd rfl hr
      · exact e f hf
      · exact e f hf
    refine ⟨key, fun h0 => ?_⟩
    rw [Graph.loadFrom_json (hq ▸ hv) key, h0]

/-- **C65, failures of the disk go unnoticed.** How `save` ends does not depend on what became of the bytes; if the file could not be opened
it returns all the same and the disk is as before. -/
theorem C65_disk_errors_unnoticed :
    (g.saveTo H f d p incl).2 = (g.saveTo H .whole d p incl).2 ∧ (m.saveTo H f d p).2 = (m.saveTo H .whole d p).2 ∧
    (g.saveTo H .unopened d p incl).1 = d ∧ (m.saveTo H .unopened d p).1 = d := by
  unfold Graph.saveTo Mesh.saveTo
  cases verifyFileExtension p with
  | throw e => exact ⟨rfl, rfl, rfl, rfl⟩
  | ub => exact ⟨rfl, rfl, rfl, rfl⟩
  | ok r =>
    obtain ⟨q, t⟩ := r
    cases t <;> (refine ⟨?_, ?_, ?_, ?_⟩ <;> simp only [] <;> split <;> rfl)

/-- **C65, whatever is on the disk.** Loading returns or throws, from any contents of any file; for JSON graphs, if the document claims a
version after 1.0.2. -/
theorem C65_any_disk (hP : H.P.Guarded) (hJ : H.J.Guarded)
    (hv : ∀ r j, H.L.parse (d.get r) = some j → ∀ h, H.J.headerIn j JEnv.headerKey = .ok h → h.version.le ⟨1, 0, 2⟩ = false) :
    Graph.loadFrom H d p ≠ .ub ∧ Mesh.loadFrom H d p ≠ .ub := by
  have hver : verifyFileExtension p ≠ .ub := by unfold verifyFileExtension; split <;> simp
  constructor
  · unfold Graph.loadFrom
    split
    · simp
    · cases e : verifyFileExtension p with
      | ub => exact absurd e hver
      | throw x => simp
      | ok r =>
        simp only [Res.bind_ok]
        split
        · split
          · simp
          · rename_i j hj
            exact C50_any_document hJ _ _ j (hv _ j hj)
        · split
          · exact C22_load_file hP _ _
          · simp
  · unfold Mesh.loadFrom
    split
    · simp
    · cases e : verifyFileExtension p with
      | ub => exact absurd e hver
      | throw x => simp
      | ok r =>
        simp only [Res.bind_ok]
        split
        · split
          · simp
          · rename_i j hj
            exact C50_any_mesh hJ j
        · split
          · rename_i hl
            unfold Mesh.loadBinary
            have h1 := Safe.header (E := H.P.env (d.get r.1) hl FileHeader.current.version) 0 (Nat.zero_le _)
            cases e1 : FileHeader.read (H.P.env (d.get r.1) hl FileHeader.current.version) 0 with
            | ub => rw [e1] at h1; exact h1.elim
            | throw x => simp
            | ok x =>
              simp only [Res.bind_ok]
              cases hx : x.1 with
              | none => simp
              | some hd =>
                simp only []
                cases e2 : hd.checkCompatibility with
                | ub =>
                  unfold FileHeader.checkCompatibility at e2
                  split at e2
                  · cases e2
                  · split at e2 <;> cases e2
                | throw y => simp
                | ok y =>
                  simp only [Res.bind_ok]
                  have h2 := Safe.mesh (E := H.P.env ((d.get r.1).drop x.2) (by simp; omega) FileHeader.current.version) 0 (Nat.zero_le _)
                  cases e3 : Rd.mesh (H.P.env ((d.get r.1).drop x.2) (by simp; omega) FileHeader.current.version) 0 with
                  | ub => rw [e3] at h2; exact h2.elim
                  | throw z => simp
                  | ok z => exact fun h => by cases h
          · simp

/-- **C65, the wrong kind of file.** A binary mesh file is not a graph, a binary graph file is not a mesh, and a JSON mesh file is not a graph:
loading throws. -/
theorem C65_wrong_kind :
    (Target p q false → ¬ NoFilename p → m.saveTo H .whole d p = (d', .ok ()) → (d'.get q).length < 2 ^ 63 →
      Graph.loadFrom H' d' q = .throw .domainError) ∧
    (Target p q false → ¬ NoFilename p → g.saveTo H .whole d p incl = (d', .ok ()) → (d'.get q).length < 2 ^ 63 →
      Mesh.loadFrom H' d' q = .throw .domainError) ∧
    (Target p q true → H.L.ReadBy H'.L → m.saveTo H .whole d p = (d', .ok ()) → Graph.loadFrom H' d' q = .throw .json) := by
  refine ⟨?_, ?_, ?_⟩
  · intro ht hf hsave hlen
    obtain ⟨bs, hb, rfl⟩ := Mesh.saveTo_binary ht hsave
    have hd := d.put_whole q bs
    have hl : bs.length < 2 ^ 63 := by rw [FileSys.get, hd] at hlen; exact hlen
    rw [Graph.loadFrom_binary (ht.again hf) hd hl]
    obtain ⟨b1, b2, h1, h2, rfl⟩ := Rd.seq_ok hb
    obtain ⟨c1, c2, h3, h4, rfl⟩ := Rd.seq_ok h2
    have hh := C29_header_round_trip FileHeader.current b1 (c1 ++ c2) (H'.P.env (b1 ++ (c1 ++ c2)) hl FileHeader.current.version) h1 rfl
    unfold Graph.loadBinary
    rw [hh]
    simp only [Res.bind_ok, Option.getD_some]
    rw [show FileHeader.current.checkCompatibility = .ok () by decide +kernel]
    simp only [Res.bind_ok]
    have hc : c1 = [if m.hasColors = true then Pack.true_ else Pack.false_] := by cases h3; rfl
    have hcur := currType_spec (E := H'.P.env ((b1 ++ (c1 ++ c2)).drop b1.length) (by simp at hl ⊢; omega) FileHeader.current.version)
      (pre := []) (rest := c2) (post := []) (t := if m.hasColors = true then Pack.true_ else Pack.false_)
      (by show (b1 ++ (c1 ++ c2)).drop b1.length = _; rw [hc]; simp)
    unfold Rd.readGraph Rd.vec Rd.arrLen
    rw [bind_apply, bind_apply, bind_apply, show currType _ 0 = _ from hcur]
    simp only [Res.bind_ok]
    rw [if_pos (by cases m.hasColors <;> decide)]
    rfl
  · intro ht hf hsave hlen
    obtain ⟨bs, hb, rfl⟩ := Graph.saveTo_binary ht hsave
    have hd := d.put_whole q bs
    have hl : bs.length < 2 ^ 63 := by rw [FileSys.get, hd] at hlen; exact hlen
    rw [Mesh.loadFrom_binary (ht.again hf) hd hl]
    obtain ⟨b1, b2, h1, h2, rfl⟩ := Rd.seq_ok hb
    obtain ⟨c1, c2, h3, h4, rfl⟩ := Rd.seq_ok h2
    obtain ⟨e1, e2, h5, h6, rfl⟩ := Rd.seq_ok h3
    have hh := C29_header_round_trip FileHeader.current b1 (e1 ++ e2 ++ c2) (H'.P.env (b1 ++ (e1 ++ e2 ++ c2)) hl FileHeader.current.version) h1 rfl
    unfold Mesh.loadBinary
    rw [hh]
    simp only [Res.bind_ok]
    rw [show FileHeader.current.checkCompatibility = .ok () by decide +kernel]
    simp only [Res.bind_ok]
    have hc : ∃ r, e1 = Pack.arr32 :: r := by
      unfold Wr.arrLen at h5
      split at h5
      · cases h5
      · cases h5; exact ⟨_, rfl⟩
    obtain ⟨r, rfl⟩ := hc
    have hcur := currType_spec (E := H'.P.env ((b1 ++ (Pack.arr32 :: r ++ e2 ++ c2)).drop b1.length) (by simp at hl ⊢; omega) FileHeader.current.version)
      (pre := []) (rest := r ++ e2 ++ c2) (post := []) (t := Pack.arr32)
      (by show (b1 ++ (Pack.arr32 :: r ++ e2 ++ c2)).drop b1.length = _; simp)
    unfold Rd.mesh Rd.bool
    rw [bind_apply, bind_apply, show currType _ 0 = _ from hcur]
    simp only [Res.bind_ok]
    rw [bind_apply]
    unfold Rd.checkType
    rw [bind_apply, show currType _ [].length = _ from hcur]
    simp only [Res.bind_ok, ne_eq, not_true_eq_false, if_false]
    rw [if_neg (by decide), if_neg (by decide)]
    rfl
  · intro ht hL hsave
    obtain ⟨j, hj, rfl⟩ := Mesh.saveTo_json ht hsave
    have hv := ht.verify
    have hq : p = q := ht.json_eq
    rw [Graph.loadFrom_json (hq ▸ hv) (d.put_whole q _), hL _ j hj]
    rw [JRT.mesh_eq] at hj
    obtain ⟨fs, rfl⟩ := Json.text_obj hj
    have hfs : Json.textFields (JRT.opts (JRT.meshFields H.J.toJArith m)) = .ok fs := by
      rw [Json.text] at hj
      obtain ⟨fs', h1, h2⟩ := bind_eq_ok hj
      cases h2
      exact h1
    have hk : ∀ k, k ∉ (JRT.meshFields H.J.toJArith m).map Prod.fst → (Json.obj fs).find k = none := by
      intro k hk
      refine JRT.get_none hfs (fun hm => hk ?_)
      obtain ⟨⟨a, b⟩, he, rfl⟩ := List.mem_map.1 hm
      exact List.mem_map.2 ⟨_, JRT.mem_opts.1 he, rfl⟩
    have h1 := hk JEnv.headerKey (by simp only [JRT.meshFields, List.map]; decide +kernel)
    have h2 := hk (Str.lit "layer_ids") (by simp only [JRT.meshFields, List.map]; decide +kernel)
    simp only [JEnv.readGraph, JEnv.headerIn, h1, Res.bind_ok, Json.at', h2]
    rfl

/-- **C65, a mesh without its header.** The bytes `Mesh.serializeToBinary` makes are not a file: put on the disk as they are, they are refused. -/
theorem C65_mesh_without_header {bs : List UInt8} (ht : Target p q false) (hf : ¬ NoFilename p) (hb : Wr.mesh m = .ok bs) (hd : d q = some bs)
    (hlen : bs.length < 2 ^ 63) : Mesh.loadFrom H d q = .throw .runtimeError := by
  rw [Mesh.loadFrom_binary (ht.again hf) hd hlen]
  obtain ⟨c1, c2, h3, -, rfl⟩ := Rd.seq_ok hb
  have hc : c1 = [if m.hasColors = true then Pack.true_ else Pack.false_] := by cases h3; rfl
  have hcur := currType_spec (E := H.P.env (c1 ++ c2) hlen FileHeader.current.version)
    (pre := []) (rest := c2) (post := []) (t := if m.hasColors = true then Pack.true_ else Pack.false_) (by show c1 ++ c2 = _; rw [hc]; simp)
  unfold Mesh.loadBinary FileHeader.read
  rw [bind_apply, show currType _ 0 = _ from hcur]
  simp only [Res.bind_ok]
  rw [if_pos (by cases m.hasColors <;> decide)]
  rfl

/-- **C65, finding.** A JSON graph file is not recognised as such when it is loaded as a mesh: the result is an empty mesh, without an error. -/
theorem C65_graph_json_as_mesh (ht : Target p q true) (hL : H.L.ReadBy H'.L) (hsave : g.saveTo H .whole d p incl = (d', .ok ())) :
    Mesh.loadFrom H' d' q = .ok {} := by
  obtain ⟨j, hj, rfl⟩ := Graph.saveTo_json ht hsave
  have hv := ht.verify
  have hq : p = q := ht.json_eq
  obtain ⟨j0, fs0, h6, _⟩ := Graph.writeJson_text hj
  rw [Mesh.loadFrom_json (hq ▸ hv) (d.put_whole q _), hL j0 j h6]
  unfold Graph.writeJson at hj
  obtain ⟨ns, _, hj⟩ := bind_eq_ok hj
  obtain ⟨es, _, hj⟩ := bind_eq_ok hj
  obtain ⟨mf, hm, hj⟩ := bind_eq_ok hj
  obtain ⟨fs, rfl⟩ := Json.text_obj hj
  rw [Json.text] at hj
  obtain ⟨fs', h1, h2⟩ := bind_eq_ok hj
  cases h2
  have hmf : ∀ k ∈ mf.map Prod.fst, k = Str.lit "mesh" := by
    unfold JArith.meshField at hm
    split at hm
    · cases hm; intro k hk; cases hk
    · obtain ⟨x, _, hm⟩ := bind_eq_ok hm
      cases hm
      intro k hk
      simpa using hk
  have hk : ∀ k, k ∉ [JEnv.headerKey, Str.lit "directed", Str.lit "multigraph", Str.lit "nodes", Str.lit "edges", Str.lit "layer_ids",
      Str.lit "mesh"] → (Json.obj fs).find k = none := by
    intro k hk
    refine JRT.get_none h1 (fun hx => hk ?_)
    rw [List.map_append, List.mem_append] at hx
    rcases hx with hx | hx
    · simp only [List.map_cons, List.map_nil] at hx
      exact List.mem_append_left [Str.lit "mesh"] hx
    · rw [hmf k hx]; simp
  have h1 := hk (Str.lit "header") (by decide +kernel)
  have h2 := hk (Str.lit "vertices") (by decide +kernel)
  have h3 := hk (Str.lit "faces") (by decide +kernel)
  simp only [JEnv.meshDoc, JEnv.headerIn, h1, Res.bind_ok]
  rw [if_pos (by decide +kernel)]
  simp only [JEnv.legacyMesh, h2, h3, Res.bind_ok]
  rfl

end
end Verif
