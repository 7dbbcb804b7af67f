import Verif.Props.Disk
import Verif.Lemmas.JsonLib
import Verif.Props.JsonSafety
/-!
# C66: a save that is interrupted

`.cut k`: the file was opened, which empties it, and the first `k` bytes arrived, because the process or the machine died or the disk was full.
`full` is the disk as it would be had all bytes arrived.
-/

namespace Verif
open Rd

section
variable {ids : List LayerId} {ops : List Op} {g : Graph} {m : Mesh} {H H' : Machine} {p q : Str} {d full d' : FileSys} {incl : Bool} {k : Nat}

/-- **C66, graphs, binary.** At every point at which the writing can stop, the file is refused with an exception, except at one: when exactly
the bytes of the mesh are missing, the graph is loaded as it was, without its mesh. In no case is a wrong or incomplete graph loaded. -/
theorem C66_graph_binary (hg : Reached ids ops g) (hs : g.Storable) (hne : g.layerIds ≠ []) (hu : g.Understood H.P.R H'.P.R H.P.Q H'.P.Q)
    (ho : ∀ l, (H'.P.order l).Perm l) (ht : Target p q false) (hf : ¬ NoFilename p) (hsave : g.saveTo H .whole d p incl = (full, .ok ()))
    (hlen : (full.get q).length < 2 ^ 63) (hk : k < (full.get q).length) (hd' : d' = (g.saveTo H (.cut k) d p incl).1) :
    ∃ tail, g.meshBytes incl = .ok tail ∧
      (k + tail.length = (full.get q).length → ∃ h ops', Graph.loadFrom H' d' q = .ok h ∧ Reached g.layerIds ops' h ∧ h.Mirrors g ∧
        (∀ a b, h.edgeObs a b = g.edgeObs a b) ∧ h.mesh = none) ∧
      (k + tail.length ≠ (full.get q).length → ∃ e, Graph.loadFrom H' d' q = .throw e) := by
  obtain ⟨bs, hb, rfl⟩ := Graph.saveTo_binary ht hsave
  have hd := d.put_whole q bs
  have hget : (d.put q bs .whole).get q = bs := by rw [FileSys.get, hd]; rfl
  rw [hget] at hlen hk
  have hcut : d' q = some (bs.take k) := by
    rw [hd']
    unfold Graph.saveTo
    rw [ht.verify]
    simp only [Bool.false_eq_true, if_false, hb]
    exact d.put_cut q bs k
  have hk' : (bs.take k).length < 2 ^ 63 := by rw [List.length_take]; omega
  have htail : ∃ tail, g.meshBytes incl = .ok tail := by
    obtain ⟨b1, b2, h1, h2, rfl⟩ := Rd.seq_ok hb
    rw [Graph.write_eq] at h2
    obtain ⟨x, y, _, h4, rfl⟩ := Rd.seq_ok h2
    exact ⟨y, h4⟩
  obtain ⟨tail, htail⟩ := htail
  refine ⟨tail, htail, ?_⟩
  rw [hget, Graph.loadFrom_binary (ht.again hf) hcut hk']
  exact Graph.loadBinary_cut hg hs hne hu ho hb htail hlen hk hk'

/-- **C66, graphs, JSON.** A JSON file that was cut short is refused. -/
theorem C66_graph_json (hL : H.L.Complete H'.L) (ht : Target p q true) (hsave : g.saveTo H .whole d p incl = (full, .ok ()))
    (hk : k < (full.get q).length) : Graph.loadFrom H' (g.saveTo H (.cut k) d p incl).1 q = .throw .json := by
  obtain ⟨j, hj, rfl⟩ := Graph.saveTo_json ht hsave
  have hv := ht.verify
  have hq : p = q := by cases ht with | json _ => rfl
  obtain ⟨j0, fs, h6, rfl⟩ := Graph.writeJson_text hj
  have hcut : (g.saveTo H (.cut k) d p incl).1 q = some ((H.L.print (.obj fs)).take k) := by
    unfold Graph.saveTo
    rw [hv]
    simp only [if_true, hj]
    exact d.put_cut q _ k
  rw [FileSys.get, d.put_whole] at hk
  rw [Graph.loadFrom_json (hq ▸ hv) hcut, hL j0 fs h6 k hk]

/-- **C66, meshes.** A mesh file that was cut short is refused. -/
theorem C66_mesh_binary (ht : Target p q false) (hf : ¬ NoFilename p) (hsave : m.saveTo H .whole d p = (full, .ok ()))
    (hlen : (full.get q).length < 2 ^ 63) (hk : k < (full.get q).length) : ∃ e, Mesh.loadFrom H' (m.saveTo H (.cut k) d p).1 q = .throw e := by
  obtain ⟨bs, hb, rfl⟩ := Mesh.saveTo_binary ht hsave
  have hget : (d.put q bs .whole).get q = bs := by rw [FileSys.get, d.put_whole]; rfl
  rw [hget] at hlen hk
  have hcut : (m.saveTo H (.cut k) d p).1 q = some (bs.take k) := by
    unfold Mesh.saveTo
    rw [ht.verify]
    simp only [Bool.false_eq_true, if_false, hb]
    exact d.put_cut q bs k
  have hk' : (bs.take k).length < 2 ^ 63 := by rw [List.length_take]; omega
  rw [Mesh.loadFrom_binary (ht.again hf) hcut hk']
  exact Mesh.loadBinary_cut hb hlen hk hk'

theorem C66_mesh_json (hL : H.L.Complete H'.L) (ht : Target p q true) (hsave : m.saveTo H .whole d p = (full, .ok ()))
    (hk : k < (full.get q).length) : Mesh.loadFrom H' (m.saveTo H (.cut k) d p).1 q = .throw .json := by
  obtain ⟨j, hj, rfl⟩ := Mesh.saveTo_json ht hsave
  have hv := ht.verify
  have hq : p = q := by cases ht with | json _ => rfl
  have hobj := hj
  rw [JRT.mesh_eq] at hobj
  obtain ⟨fs, rfl⟩ := Json.text_obj hobj
  have hcut : (m.saveTo H (.cut k) d p).1 q = some ((H.L.print (.obj fs)).take k) := by
    unfold Mesh.saveTo
    rw [hv]
    simp only [if_true, hj]
    exact d.put_cut q _ k
  rw [FileSys.get, d.put_whole] at hk
  rw [Mesh.loadFrom_json (hq ▸ hv) hcut, hL _ fs hj k hk]

/-- **C66, finding.** Saving over a file is not atomic: if the process dies before the first byte arrives, then what was in the file before is
gone and nothing can be loaded any more, whatever the graph and whatever the disk. -/
theorem C66_not_atomic (hL : H'.L.parse [] = none) {b : Bool} (ht : Target p q b) (hf : ¬ NoFilename p) (hok : (g.saveTo H .whole d p incl).2 = .ok ()) :
    (g.saveTo H (.cut 0) d p incl).1 q = some [] ∧ ∃ e, Graph.loadFrom H' (g.saveTo H (.cut 0) d p incl).1 q = .throw e := by
  have key : (g.saveTo H (.cut 0) d p incl).1 q = some [] := by
    unfold Graph.saveTo at hok ⊢
    rw [ht.verify] at hok ⊢
    cases b with
    | true =>
      simp only [if_true] at hok ⊢
      split <;> exact d.put_cut q _ 0
    | false =>
      simp only [Bool.false_eq_true, if_false] at hok ⊢
      split
      · exact d.put_cut q _ 0
      · rename_i hx; rw [hx] at hok; cases hok
      · rename_i hx; rw [hx] at hok; cases hok
  refine ⟨key, ?_⟩
  cases b with
  | true => exact ⟨_, by rw [Graph.loadFrom_json (ht.again hf) key, hL]⟩
  | false =>
    rw [Graph.loadFrom_binary (ht.again hf) key (by decide)]
    exact ⟨_, rfl⟩

end

/-! ## The hypotheses can be met -/

namespace Sample

/-- a program -/
noncomputable def machine : Machine := ⟨Safety.checked, JsonSafety.checked, ToyJson.lib⟩
/-- a disk on which one other file is -/
def oneFile : FileSys := fun p => if p = str "b.sparkdsg" then some [1, 2, 3] else none

theorem toBin : Target (str "dir/a") (str "dir/a.sparkdsg") false := .appended ((pathExtension_nil _).1 (by decide +kernel))
theorem toBin' : Target (str "b.sparkdsg") (str "b.sparkdsg") false := .binary ((pathExtension_iff _ _).1 (by decide +kernel))
theorem toJson : Target (str "a.json") (str "a.json") true := .json (.inl ((pathExtension_iff _ _).1 (by decide +kernel)))
theorem named : ¬ NoFilename (str "dir/a") := by
  rintro (h | ⟨d, h⟩)
  · revert h; decide +kernel
  · have := congrArg List.getLast? h
    rw [List.getLast?_concat] at this
    revert this; decide +kernel

theorem ioSaved : ∃ bs, (after ids ioOps).saveBinary machine.P true = .ok bs ∧ bs.length < 2 ^ 63 ∧ 400 < bs.length := by
  have h : (match (after ids ioOps).saveBinary Safety.checked true with
    | .ok bs => decide (bs.length < 2 ^ 63 ∧ 400 < bs.length) | _ => false) = true := by decide +kernel
  show ∃ bs, (after ids ioOps).saveBinary Safety.checked true = .ok bs ∧ _
  generalize (after ids ioOps).saveBinary Safety.checked true = r at h ⊢
  cases r with
  | ok bs => exact ⟨bs, rfl, by simpa using h⟩
  | throw e => cases h
  | ub => cases h

/-- A graph is saved without extension next to another file, and loaded. -/
theorem ioDisk : ∃ d', (after ids ioOps).saveTo machine .whole oneFile (str "dir/a") true = (d', .ok ()) ∧ (d'.get (str "dir/a.sparkdsg")).length < 2 ^ 63 ∧
    400 < (d'.get (str "dir/a.sparkdsg")).length := by
  obtain ⟨bs, h1, h2, h3⟩ := ioSaved
  refine ⟨_, Graph.saveTo_of_binary toBin h1, ?_⟩
  rw [FileSys.get, FileSys.put_whole]
  exact ⟨h2, h3⟩

example : ∃ d' h, (after ids ioOps).saveTo machine .whole oneFile (str "dir/a") true = (d', .ok ()) ∧
    Graph.loadFrom machine d' (str "dir/a.sparkdsg") = .ok h ∧ h.Mirrors (after ids ioOps) ∧ h.mesh = (after ids ioOps).mesh ∧
    d' (str "b.sparkdsg") = some [1, 2, 3] := by
  obtain ⟨d', h1, h2, _⟩ := ioDisk
  obtain ⟨h, _, h3, _, h4, _, h5⟩ := C65_graph_binary (H' := machine) ioReached ioStorable (by decide +kernel) ioUnderstood (fun l => .refl l) toBin named h1 h2
  refine ⟨d', h, h1, h3, h4, h5, ?_⟩
  have := ((C65_other_files (g := after ids ioOps) (m := {}) (H := machine) (f := .whole) (d := oneFile) (incl := true)).1 false toBin
    (str "b.sparkdsg") (by decide +kernel)).1
  rw [h1] at this
  exact this.trans (by decide +kernel)

/-- **C66, finding.** The one exception is real: a graph saved with its mesh, and loaded without a word and without the mesh. -/
theorem C66_mesh_lost : ∃ k d' h, d' = ((after ids ioOps).saveTo machine (.cut k) oneFile (str "dir/a") true).1 ∧
    Graph.loadFrom machine d' (str "dir/a.sparkdsg") = .ok h ∧ h.Mirrors (after ids ioOps) ∧ (after ids ioOps).mesh ≠ none ∧ h.mesh = none := by
  obtain ⟨full, h1, h2, h3⟩ := ioDisk
  have ht : ∃ tail, (after ids ioOps).meshBytes true = .ok tail ∧ 0 < tail.length ∧ tail.length < 400 := by
    have h : (match (after ids ioOps).meshBytes true with | .ok bs => decide (0 < bs.length ∧ bs.length < 400) | _ => false) = true := by decide +kernel
    generalize (after ids ioOps).meshBytes true = r at h ⊢
    cases r with
    | ok bs => exact ⟨bs, rfl, by simpa using h⟩
    | throw e => cases h
    | ub => cases h
  obtain ⟨tail, t1, t2, t3⟩ := ht
  obtain ⟨tail', t4, t5, _⟩ := C66_graph_binary (H' := machine) (k := (full.get (str "dir/a.sparkdsg")).length - tail.length) ioReached ioStorable
    (by decide +kernel) ioUnderstood (fun l => .refl l) toBin named h1 h2 (by omega) rfl
  rw [t1] at t4
  cases t4
  obtain ⟨h, _, h4, _, h5, _, h6⟩ := t5 (by omega)
  exact ⟨_, _, h, rfl, h4, h5, by decide +kernel, h6⟩

/-- everything else is refused, for instance a file of which only the first 100 bytes arrived -/
example : ∃ e, Graph.loadFrom machine ((after ids ioOps).saveTo machine (.cut 100) oneFile (str "dir/a") true).1 (str "dir/a.sparkdsg") = .throw e := by
  obtain ⟨full, h1, h2, h3⟩ := ioDisk
  obtain ⟨tail, t1, _, t3⟩ := C66_graph_binary (H' := machine) (k := 100) ioReached ioStorable
    (by decide +kernel) ioUnderstood (fun l => .refl l) toBin named h1 h2 (by omega) rfl
  have h : (match (after ids ioOps).meshBytes true with | .ok bs => decide (bs.length < 300) | _ => false) = true := by decide +kernel
  rw [t1] at h
  have h : tail.length < 300 := by simpa using h
  exact t3 (by omega)

theorem jsDisk (d : FileSys) : ∃ d', (after ids jsOps).saveTo machine .whole d (str "a.json") true = (d', .ok ()) ∧
    ∃ h ops', Graph.loadFrom machine d' (str "a.json") = .ok h ∧ Reached (after ids jsOps).layerIds ops' h ∧
      h.Copies machine.J.toJArith (after ids jsOps) ∧ h.mesh = (if true then (after ids jsOps).mesh.map Mesh.printed else none) :=
  C65_graph_json jsReached (by decide +kernel) jsPrintable jsNameable rfl ToyJson.readBy toJson

example : ∃ full, (after ids jsOps).saveTo machine .whole oneFile (str "a.json") true = (full, .ok ()) ∧
    ∀ k, k < (full.get (str "a.json")).length →
      Graph.loadFrom machine ((after ids jsOps).saveTo machine (.cut k) oneFile (str "a.json") true).1 (str "a.json") = .throw .json := by
  obtain ⟨full, h1, _⟩ := jsDisk oneFile
  exact ⟨full, h1, fun k hk => C66_graph_json ToyJson.complete toJson h1 hk⟩

example : ∃ d', (after ids jsOps).saveTo machine .whole oneFile (str "a.json") true = (d', .ok ()) ∧ Mesh.loadFrom machine d' (str "a.json") = .ok {} := by
  obtain ⟨d', h1, _⟩ := jsDisk oneFile
  exact ⟨d', h1, C65_graph_json_as_mesh toJson ToyJson.readBy h1⟩

/-- **C65, finding.** A JSON save that throws destroys what was saved before: here, because of a name that is not UTF-8. -/
theorem C65_failed_save_destroys : ∃ ops g d h, Reached ids ops g ∧ Graph.loadFrom machine d (str "a.json") = .ok h ∧ h.Copies machine.J.toJArith (after ids jsOps) ∧
    (g.saveTo machine .whole d (str "a.json") true).2 = .throw .json ∧
    Graph.loadFrom machine (g.saveTo machine .whole d (str "a.json") true).1 (str "a.json") = .throw .json := by
  obtain ⟨ops, g, hg, hw⟩ := JsonLimits.C27_name_not_utf8
  obtain ⟨d, _, h, _, h1, _, h2, _⟩ := jsDisk oneFile
  have hr : (g.saveTo machine .whole d (str "a.json") true).2 = .throw .json := by
    unfold Graph.saveTo
    rw [toJson.verify]
    simp only [if_true]
    rw [show g.writeJson machine.J.toJArith machine.P.R machine.P.Q true = .throw .json from hw]
  refine ⟨ops, g, d, h, hg, h1, h2, hr, ?_⟩
  exact ((C65_failed_save (g := g) (H := machine) (H' := machine) (f := .whole) (d := d) (incl := true)).2 toJson
    (by rw [hr]; exact fun h => by cases h) (by exact fun h => by cases h)).2 ToyJson.parse_nil

/-- a mesh -/
def mesh1 : Mesh := { points := [⟨1, 2, 3⟩] , colors := [{}], stamps := [0], firstSeen := [1], labels := [0], faces := [(0, 0, 0)] }
theorem mesh1Saved : ∃ d', mesh1.saveTo machine .whole oneFile (str "dir/a") = (d', .ok ()) ∧ (d'.get (str "dir/a.sparkdsg")).length < 2 ^ 63 ∧
    50 < (d'.get (str "dir/a.sparkdsg")).length := by
  have h : (match mesh1.saveBinary with | .ok bs => decide (bs.length < 2 ^ 63 ∧ 50 < bs.length) | _ => false) = true := by decide +kernel
  cases hb : mesh1.saveBinary with
  | ok bs =>
    rw [hb] at h
    refine ⟨_, Mesh.saveTo_of_binary toBin hb, ?_⟩
    rw [FileSys.get, FileSys.put_whole]
    simpa using h
  | throw e => rw [hb] at h; cases h
  | ub => rw [hb] at h; cases h
example : ∃ d', mesh1.saveTo machine .whole oneFile (str "dir/a") = (d', .ok ()) ∧ Mesh.loadFrom machine d' (str "dir/a.sparkdsg") = .ok mesh1 ∧
    Graph.loadFrom machine d' (str "dir/a.sparkdsg") = .throw .domainError ∧
    ∃ e, Mesh.loadFrom machine (mesh1.saveTo machine (.cut 50) oneFile (str "dir/a")).1 (str "dir/a.sparkdsg") = .throw e := by
  obtain ⟨d', h1, h2, h3⟩ := mesh1Saved
  exact ⟨d', h1, C65_mesh_binary toBin named h1 h2,
    (C65_wrong_kind (g := after ids ioOps) (incl := true)).1 toBin named h1 h2, C66_mesh_binary toBin named h1 h2 h3⟩
example : ∃ d', mesh1.saveTo machine .whole oneFile (str "a.json") = (d', .ok ()) ∧ Mesh.loadFrom machine d' (str "a.json") = .ok mesh1 ∧
    ∀ k, k < (d'.get (str "a.json")).length → Mesh.loadFrom machine (mesh1.saveTo machine (.cut k) oneFile (str "a.json")).1 (str "a.json") = .throw .json := by
  obtain ⟨d', h1, h2⟩ := C65_mesh_json (H := machine) (H' := machine) (d := oneFile) (m := mesh1) rfl ToyJson.readBy toJson
  exact ⟨d', h1, h2, fun k hk => C66_mesh_json ToyJson.complete toJson h1 hk⟩

/-- A mesh written without the header. -/
example : ∃ bs, Wr.mesh mesh1 = .ok bs ∧ Mesh.loadFrom machine (fun _ => some bs) (str "dir/a.sparkdsg") = .throw .runtimeError := by
  have h : (match Wr.mesh mesh1 with | .ok bs => decide (bs.length < 2 ^ 63) | _ => false) = true := by decide +kernel
  cases hb : Wr.mesh mesh1 with
  | ok bs => rw [hb] at h; exact ⟨bs, rfl, C65_mesh_without_header toBin named hb rfl (by simpa using h)⟩
  | throw e => rw [hb] at h; cases h
  | ub => rw [hb] at h; cases h

example : machine.P.Guarded ∧ machine.J.Guarded := ⟨⟨rfl, .inl rfl⟩, ⟨rfl, rfl⟩⟩

end Sample
end Verif
