import Verif.Lemmas.Logger3
import Verif.Props.GraphIO
/-! # C61: the statistics files of the logger -/

namespace Verif

variable {lg : Logger} {d : Disk} {l : LayerId} {name : String}

theorem Snapshot.layer_row (s : Snapshot) {x : Layer} (hx : s.g.layers.find? l = some x) :
    ∃ r, Logger.layerRow s.g x = .ok r ∧ s.Row l r := s.reached.layerRow s.start s.since.1 s.since.2 hx

/-- **C61**, no failure: logging a graph made by any well-behaved history throws nothing, whatever the names and the files. -/
theorem C61_logs_any_graph (s : Snapshot) (lg : Logger) (d : Disk) : ∃ d', lg.logGraph s.g d = .ok ({ lg with header := false }, d') := by
  obtain ⟨d', h⟩ := Logger.logLayers_ok (lg := lg) (g := s.g) (L := s.g.layers.toList) (by
    intro e he
    obtain ⟨r, hr, -⟩ := s.layer_row (l := e.1) (OMap.mem_toList.1 he)
    exact ⟨r, hr⟩) d
  exact ⟨d', by unfold Logger.logGraph; rw [h, Res.bind_ok]; rfl⟩

/-- The layer is named, no other layer has the same file, and the file can be opened. -/
structure Logger.OwnFile (lg : Logger) (d : Disk) (l : LayerId) (name : String) : Prop where
  named : lg.names.find? l = some name
  own : ∀ l' name', lg.names.find? l' = some name' → lg.path name' = lg.path name → l' = l
  opens : d.writable (lg.path name) = true

theorem Logger.log_step (s : Snapshot) (hl : s.g.hasLayer l = true) (h : lg.OwnFile d l name) :
    ∃ d' r, lg.logGraph s.g d = .ok ({ lg with header := false }, d') ∧ s.Row l r ∧ d'.writable = d.writable ∧
      d'.file (lg.path name) = (if r.active = 0 ∧ lg.header = false then d.file (lg.path name)
        else some ((if lg.header then LogRow.headerText else (d.file (lg.path name)).getD "") ++ r.text)) := by
  obtain ⟨x, hx⟩ := OMap.contains_eq_true.1 hl
  obtain ⟨r, hr, hright⟩ := s.layer_row hx
  obtain ⟨d', hd⟩ := C61_logs_any_graph s lg d
  obtain ⟨h1, h2, -⟩ := Logger.logGraph_file hd hx h.named h.own hr h.opens
  refine ⟨d', r, hd, hright, h2, ?_⟩
  have hz : x.nodes.size = r.active := by
    obtain ⟨L, n1, n2, n3⟩ := hright.active
    rw [n3, s.reached.rep.1.static_size hx]
    refine length_eq_of_mem ((OMap.keys_nodup _).filter _) n1 fun n => ?_
    refine Iff.trans ?_ (n2 n).symm
    show _ ↔ s.g.getLayerForNode n = some (.static l)
    rw [Spec.mem_inLayer, s.reached.rep.1.getLayerForNode]
  rw [h1, hz]

/-- **C61**, first call: the file of a named layer is replaced by the header and one line with the right numbers, whatever it held before and
even if the layer is empty. -/
theorem C61_first_call (s : Snapshot) (hl : s.g.hasLayer l = true) (h : lg.OwnFile d l name) (hf : lg.header = true) :
    ∃ d' r, lg.logGraph s.g d = .ok ({ lg with header := false }, d') ∧ s.Row l r ∧
      d'.file (lg.path name) = some (LogRow.headerText ++ r.text) := by
  obtain ⟨d', r, h1, h2, -, h3⟩ := Logger.log_step s hl h
  exact ⟨d', r, h1, h2, by rw [h3]; simp [hf]⟩

/-- **C61**, later calls: one line with the right numbers is appended if the layer has a node; otherwise the file is left alone. -/
theorem C61_later_call (s : Snapshot) (hl : s.g.hasLayer l = true) (h : lg.OwnFile d l name) (hf : lg.header = false) :
    ∃ d' r, lg.logGraph s.g d = .ok (lg, d') ∧ s.Row l r ∧
      ((∃ n, s.g.getLayerForNode n = some (.static l)) → d'.file (lg.path name) = some ((d.file (lg.path name)).getD "" ++ r.text)) ∧
      ((∀ n, s.g.getLayerForNode n ≠ some (.static l)) → d'.file (lg.path name) = d.file (lg.path name)) := by
  obtain ⟨d', r, h1, h2, -, h3⟩ := Logger.log_step s hl h
  have e : ({ lg with header := false } : Logger) = lg := by rw [← hf]
  rw [e] at h1
  refine ⟨d', r, h1, h2, ?_⟩
  have : (∃ n, s.g.getLayerForNode n = some (.static l)) ↔ r.active ≠ 0 := by
    obtain ⟨L, -, n2, n3⟩ := h2.active
    rw [n3]
    constructor
    · rintro ⟨n, hn⟩ h0
      rw [List.length_eq_zero_iff] at h0
      have := (n2 n).2 hn
      rw [h0] at this
      cases this
    · intro h0
      obtain ⟨n, hn⟩ := List.exists_mem_of_length_pos (Nat.pos_of_ne_zero h0)
      exact ⟨n, (n2 n).1 hn⟩
  constructor
  · intro hn
    rw [h3, if_neg (fun h0 => this.1 hn h0.1), hf]
    rfl
  · intro hn
    have h0 : r.active = 0 := Classical.byContradiction fun h0 => by
      obtain ⟨n, h⟩ := this.2 h0
      exact hn n h
    rw [h3, if_pos ⟨h0, hf⟩]

theorem Logger.log_rest (ss : List Snapshot) (hl : ∀ s ∈ ss, s.g.hasLayer l = true) {d : Disk} (h : lg.OwnFile d l name)
    (hf : lg.header = false) {start : String} (hd : d.file (lg.path name) = some start) :
    ∃ d' rs, lg.logAll d (ss.map (·.g)) = .ok (lg, d') ∧ Snapshot.Rows l ss rs ∧
      d'.file (lg.path name) = some (start ++ String.join ((rs.filter (fun r => r.active != 0)).map LogRow.text)) := by
  induction ss generalizing d start with
  | nil => exact ⟨d, [], rfl, trivial, by rw [hd]; simp [String.join]⟩
  | cons s ss ih =>
    obtain ⟨d1, r, h1, h2, h4, h3⟩ := Logger.log_step s (hl s List.mem_cons_self) h
    have e : ({ lg with header := false } : Logger) = lg := by rw [← hf]
    rw [e] at h1
    have hd1 : d1.file (lg.path name) = some (if r.active = 0 then start else start ++ r.text) := by
      rw [h3, hd]
      by_cases h0 : r.active = 0 <;> simp [h0, hf]
    obtain ⟨d2, rs, a, b, c⟩ := ih (fun s' hs => hl s' (List.mem_cons_of_mem _ hs)) (d := d1)
      ⟨h.named, h.own, by rw [h4]; exact h.opens⟩ hd1
    refine ⟨d2, r :: rs, ?_, ⟨h2, b⟩, ?_⟩
    · rw [List.map_cons, Logger.logAll, h1, Res.bind_ok]; exact a
    · rw [c]
      by_cases h0 : r.active = 0
      · simp [h0]
      · simp [h0, String.append_assoc]

/-- **C61**, the whole file: after any number of calls of a new logger, the file holds the header, the line of the first graph, and one line for
each later graph in which the layer had a node, in order. -/
theorem C61_whole_file (s : Snapshot) (ss : List Snapshot) (hl : ∀ t ∈ s :: ss, t.g.hasLayer l = true) (h : lg.OwnFile d l name)
    (hf : lg.header = true) :
    ∃ lg' d' r rs, lg.logAll d ((s :: ss).map (·.g)) = .ok (lg', d') ∧ Snapshot.Rows l (s :: ss) (r :: rs) ∧
      d'.file (lg.path name) = some (LogRow.headerText ++ r.text ++ String.join ((rs.filter (fun r => r.active != 0)).map LogRow.text)) := by
  obtain ⟨d1, r, h1, h2, h4, h3⟩ := Logger.log_step s (hl s List.mem_cons_self) h
  obtain ⟨d2, rs, a, b, c⟩ := Logger.log_rest (lg := { lg with header := false }) ss (fun t ht => hl t (List.mem_cons_of_mem _ ht)) (d := d1)
    (name := name) ⟨h.named, h.own, by rw [h4]; exact h.opens⟩ rfl (start := LogRow.headerText ++ r.text)
    (by show d1.file (lg.path name) = _; rw [h3]; simp [hf])
  exact ⟨_, d2, r, rs, by rw [List.map_cons, Logger.logAll, h1, Res.bind_ok]; exact a, ⟨h2, b⟩, c⟩

/-- **C61**, other files: a path that is not the file of a named layer is not touched. -/
theorem C61_other_files (s : Snapshot) {p : String} (hp : ∀ l name, lg.names.find? l = some name → lg.path name ≠ p) :
    ∃ d', lg.logGraph s.g d = .ok ({ lg with header := false }, d') ∧ d'.file p = d.file p := by
  obtain ⟨d', h⟩ := C61_logs_any_graph s lg d
  refine ⟨d', h, ?_⟩
  unfold Logger.logGraph at h
  obtain ⟨d1, h1, h2⟩ := bind_eq_ok h
  cases h2
  exact (Logger.logLayers_other (fun e _ name hn => hp e.1 name hn) h1).1

/-- **C61**, names: the first name given to a layer stays. -/
theorem C61_first_name_stays (lg : Logger) (l : LayerId) (a b : String) :
    (lg.setLayerName l a).setLayerName l b = lg.setLayerName l a ∧
    (lg.names.contains l = false → (lg.setLayerName l a).names.find? l = some a) := by
  constructor
  · unfold Logger.setLayerName OMap.emplace
    by_cases h : lg.names.contains l = true
    · rw [if_pos h]; simp only; rw [if_pos h]
    · rw [if_neg h]; simp only; rw [if_pos (by simp [OMap.contains])]
  · intro h
    simp [Logger.setLayerName, OMap.emplace, h]

namespace Sample

/-- the sample history as a snapshot -/
def snapshot : Snapshot where
  ids := ids
  pre := []
  mid := ops
  g := state
  reached := reached
  start := .inl rfl
  since := by
    have h : ops.all (fun op => (match op with | .removedNodes true => false | _ => true) && !op.wipes) = true := by decide +kernel
    rw [List.all_eq_true] at h
    constructor
    · intro hm; have := h _ hm; simp at this
    · intro op hm
      have := h _ hm
      simp only [Bool.and_eq_true, Bool.not_eq_true'] at this
      exact this.2

/-- a logger for two layers -/
def logger : Logger := (({} : Logger).setOutputPath "out").setLayerName 2 "objects" |>.setLayerName 3 "places"
/-- a disk with an old file -/
def disk : Disk := { file := fun p => if p = "out/objects_layer.csv" then some "old" else none, writable := fun _ => true }

theorem logger_own : logger.OwnFile disk 2 "objects" := by
  refine ⟨by decide +kernel, ?_, by decide +kernel⟩
  intro l' name' h hp
  have : ∀ e ∈ logger.names.toList, logger.path e.2 = logger.path "objects" → e.1 = 2 := by decide +kernel
  exact this (l', name') (OMap.mem_toList.2 h) hp

/-- The hypotheses of the theorems above are met, and the files look like this. -/
example : state.hasLayer 2 = true ∧ logger.header = true ∧ logger.OwnFile disk 2 "objects" ∧
    (match logger.logAll disk [state, state] with
     | .ok (_, d) => (d.file "out/objects_layer.csv", d.file "out/places_layer.csv", d.file "out/x")
     | _ => (none, none, none)) =
    (some (LogRow.headerText ++ "2,0,1,1,0,1\n2,0,1,1,0,1\n"), some (LogRow.headerText ++ "2,0,0,0,2,0\n2,0,0,0,2,0\n"), none) :=
  ⟨by decide +kernel, by decide +kernel, logger_own, by decide +kernel⟩

end Sample

/-- **C61**, a node with two parents is not counted as having a parent. -/
theorem C61_two_parents_not_counted : ∃ g, Reached [2, 3] [.emplaceNode 2 10 Sample.at0, .emplaceNode 3 20 Sample.at0, .emplaceNode 3 21 Sample.at0,
      .insertEdge 20 10 none, .insertEdge 21 10 none] g ∧ g.AboveNode 10 20 ∧ g.AboveNode 10 21 ∧
    ∃ x, g.layers.find? 2 = some x ∧ Logger.layerRow g x = .ok { active := 1 } := by
  refine ⟨Sample.after _ _, Sample.after_reached (by decide) (by decide +kernel), ⟨by decide +kernel, .static 2, .static 3, by decide +kernel⟩,
    ⟨by decide +kernel, .static 2, .static 3, by decide +kernel⟩, _, rfl, by decide +kernel⟩

/-- **C61**, a layer named after the first call gets no header, and its lines go to the end of whatever the file held. -/
theorem C61_late_name (s t : Snapshot) (hl : t.g.hasLayer l = true) (hn : ∃ n, t.g.getLayerForNode n = some (.static l))
    (hnew : lg.names.contains l = false) (hown : ∀ l' name', lg.names.find? l' = some name' → lg.path name' ≠ lg.path name)
    (hopen : d.writable (lg.path name) = true) :
    ∃ lg1 d1 lg2 d2 r, lg.logGraph s.g d = .ok (lg1, d1) ∧ (lg1.setLayerName l name).logGraph t.g d1 = .ok (lg2, d2) ∧ t.Row l r ∧
      d2.file (lg.path name) = some ((d.file (lg.path name)).getD "" ++ r.text) := by
  obtain ⟨d1, h1, hk⟩ := C61_other_files (d := d) (p := lg.path name) s hown
  have hw : d1.writable = d.writable := by
    have h1' := h1
    unfold Logger.logGraph at h1'
    obtain ⟨dd, h2, h3⟩ := bind_eq_ok h1'
    cases h3
    exact (Logger.logLayers_other (p := lg.path name) (fun e _ nm hn => hown e.1 nm hn) h2).2
  have hnames : ∀ l', (({ lg with header := false } : Logger).setLayerName l name).names.find? l' =
      if l' = l then some name else lg.names.find? l' := by
    intro l'
    simp only [Logger.setLayerName, OMap.emplace, hnew, Bool.false_eq_true, if_false, OMap.find?_insert]
    by_cases e : l' = l
    · simp [e]
    · simp [e, Ne.symm e]
  obtain ⟨d2, r, h2, h3, h4, -⟩ := C61_later_call (lg := ({ lg with header := false } : Logger).setLayerName l name) (d := d1) (name := name) t hl
    ⟨by rw [hnames]; simp, by
      intro l' name' h5 h6
      rw [hnames] at h5
      by_cases e : l' = l
      · exact e
      · rw [if_neg e] at h5
        exact absurd h6 (hown l' name' h5), by rw [hw]; exact hopen⟩ rfl
  refine ⟨_, d1, _, d2, r, h1, h2, h3, ?_⟩
  rw [← hk]
  exact h4 hn

/-- The old file is kept, and the first line is a line of numbers. -/
example : (match ({} : Logger).logGraph Sample.state Sample.disk with
    | .ok (lg, d) => (match ((lg.setOutputPath "out").setLayerName 2 "objects").logGraph Sample.state d with
      | .ok (_, d) => d.file "out/objects_layer.csv" | _ => none) | _ => none) = some "old2,0,1,1,0,1\n" := by decide +kernel

end Verif
