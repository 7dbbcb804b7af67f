import Verif.Props.JsonSafety
/-! # C70: documents in which fields of attributes are missing -/

namespace Verif
open Json

section
variable {ids : List LayerId} {ops : List Op} {g : Graph}

/-- **C70.** An attribute object is printed; whichever of its fields are left (the class must be), in whatever order, and whatever other fields
are added, it is read as the object whose missing members are those of a new object of its class. -/
theorem C70_missing_members {E : JEnv} (hv : E.version = FileHeader.current.version) {W R' : Registry NodeClass} {a : NodeAttrs} (hty : a.Typed)
    (h : a.Printable E.toJArith) (hone : W.Once) (hfew : R'.entries.length ≤ 256) {name : Str} (hu : name.IsText) (hw : (name, a.cls) ∈ W.entries)
    (hr : R'.find? name = some a.cls) :
    ∃ j, (E.toJArith.nodeAttrs W a).text = .ok j ∧ ∀ keep j', keep (Str.lit "type") = true → j.Lacks keep j' →
      E.nodeAttrs R' j' = .ok (some ((a.jsonKept E.toJArith).only E.fresh keep)) := by
  obtain ⟨fs', h1, _, h2⟩ := JRT.nodeAttrs_partly E E.toJArith.exact hv hty h hone hfew hu hw hr
  exact ⟨_, h1, h2⟩

/-- **C70.** The same for edges. -/
theorem C70_missing_edge_members {E : JEnv} {V Q : Registry EdgeClass} {a : EdgeAttrs} (h : F64.finite a.weight = true) (hone : V.Once)
    (hfew : Q.entries.length ≤ 256) {name : Str} (hu : name.IsText) (hw : (name, EdgeClass.base) ∈ V.entries) (hr : Q.find? name = some .base) :
    ∃ j, (JArith.edgeAttrs V a).text = .ok j ∧ ∀ keep j', keep (Str.lit "type") = true → j.Lacks keep j' →
      E.edgeAttrs Q j' = .ok (some (a.only keep)) := by
  obtain ⟨fs', h1, _, h2⟩ := JRT.edgeAttrs_partly E h hone hfew hu hw hr
  exact ⟨_, h1, h2⟩

/-- **C70.** A document of a graph of whose attributes any fields are missing is read without an error. The graph read has the same layers,
nodes, stamps, edges with orientation, adjacency sets and mesh; the members of the missing fields are those of new objects. -/
theorem C70_missing_fields (hg : Reached ids ops g) (hne : g.layerIds ≠ []) {E : JEnv} {includeMesh : Bool}
    (hp : g.Printable E.toJArith) {W R' : Registry NodeClass} {V Q : Registry EdgeClass} (hu : g.Nameable W R' V Q)
    {keepNode keepEdge : Str → Str → Bool} (hkn : ∀ c, keepNode c (Str.lit "type") = true) (hke : ∀ c, keepEdge c (Str.lit "type") = true) :
    ∃ j, g.writeJson E.toJArith W V includeMesh = .ok j ∧ ∀ j', j.DocumentLacks keepNode keepEdge j' →
      ∃ h ops', E.readGraph R' Q j' = .ok h ∧ Reached g.layerIds ops' h ∧ h.layerIds = g.layerIds ∧
        (∀ n, h.nodeObs n = (g.nodeObs n).map (fun i =>
          { i with attrs := (i.attrs.jsonKept E.toJArith).only E.fresh (keepNode (W.nameOf i.attrs.cls)) })) ∧
        (∀ a b, h.edgeObs a b = (g.edgeObs a b).map (fun i => { i with attrs := i.attrs.only (keepEdge (V.nameOf .base)) })) ∧
        (∀ n, h.adjObs n = g.adjObs n) ∧ h.mesh = if includeMesh then g.mesh.map Mesh.printed else none := by
  obtain ⟨hr, hw⟩ := hg.rep
  obtain ⟨j, hj, hread⟩ := hr.json hw hne E.toJArith.exact hp hu hkn hke
  refine ⟨j, hj, fun j' hl => ?_⟩
  obtain ⟨h, ops', τ, hc, hh, rh, wh, h1, h2, h3, h4⟩ := hread j' hl
  have hhas : ∀ a b, τ.hasEdge a b = ((Spec.init ids).after ops).hasEdge a b := by
    intro a b
    unfold Spec.hasEdge
    rw [Bool.eq_iff_iff, OMap.contains_eq_true, OMap.contains_eq_true, h4]
    cases OMap.find? ((Spec.init ids).after ops).edges (EdgeKey.of a b) <;> simp
  have hck : ∀ (f : NodeAttrs → NodeAttrs) (i : NodeInfo), (i.with f).cloned.key = i.key := by
    intro f i; unfold NodeInfo.cloned; split <;> rfl
  have hkey : ∀ n, (τ.nodes.find? n).map NodeInfo.key = (((Spec.init ids).after ops).nodes.find? n).map NodeInfo.key := by
    intro n
    rw [h3]
    cases ((Spec.init ids).after ops).nodes.find? n with
    | none => rfl
    | some i => exact congrArg some (hck _ i)
  refine ⟨h, ops', hc, hh, ?_, ?_, ?_, ?_, ?_⟩
  · rw [show h.layerIds = _ from rh.layerIds, h1]; exact (show g.layerIds = _ from hr.layerIds).symm
  · intro n
    rw [rh.nodeObs wh, h3, ← hr.nodeObs hw]
    cases hn : g.nodeObs n with
    | none => rfl
    | some i =>
      refine congrArg some ?_
      have hpl := hp.plain n i hn
      obtain ⟨k, st, at'⟩ := i
      cases k with
      | dyn l p => rfl
      | static l =>
        have : st = none := hpl rfl
        subst this
        rfl
  · intro a b; rw [rh.edgeObs wh, hr.edgeObs hw]; exact h4 _
  · intro n
    rw [rh.adjObs wh, hr.adjObs hw, h3]
    cases ((Spec.init ids).after ops).nodes.find? n with
    | none => rfl
    | some i =>
      simp only [Option.map_some, Spec.parents, Spec.siblings, Spec.children, GraphIO.nbrs_congr hkey hhas, hck]
  · rw [show h.mesh = _ from rh.mesh, h2]

/-- **C70.** What is read depends on the document only, and not on what is in memory, if the fields are there that a constructor leaves
uninitialised. -/
theorem C70_initialised (keep : Str → Bool) (a : NodeAttrs) (h : ∀ k ∈ a.cls.unset, keep k = true) (m m' : Garbage) : a.only m keep = a.only m' keep := by
  cases a with
  | place2d b s p =>
    have h1 := h (Str.lit "ellipse_centroid") (by simp [NodeAttrs.cls, NodeClass.unset])
    have h2 := h (Str.lit "ellipse_matrix_compress") (by simp [NodeAttrs.cls, NodeClass.unset])
    have h3 := h (Str.lit "ellipse_matrix_expand") (by simp [NodeAttrs.cls, NodeClass.unset])
    simp only [NodeAttrs.only, Place2dAttrs.only, pick, h1, h2, h3, if_true]
  | agent b a =>
    have h1 := h (Str.lit "world_R_body") (by simp [NodeAttrs.cls, NodeClass.unset])
    have h2 := h (Str.lit "external_key") (by simp [NodeAttrs.cls, NodeClass.unset])
    simp only [NodeAttrs.only, AgentAttrs.only, pick, h1, h2, if_true]
  | base b => rfl
  | semantic b s => rfl
  | object b s o => rfl
  | room b s p => rfl
  | place b s p => rfl
  | khronos b s o k => rfl
end

namespace Missing
open Sample JsonSafety GraphIO

/-- an object without some of its fields -/
def trim (keep : Str → Bool) : Json → Json
  | .obj fs => .obj (fs.filter (fun e => keep e.1))
  | j => j
/-- the name of the class -/
def className (j : Json) : Str :=
  match j.find (Str.lit "type") with
  | some (.str s) => s
  | _ => []
/-- an object with one field changed -/
def change (k : Str) (f : Json → Json) : Json → Json
  | .obj fs => .obj (fs.map (fun e => if e.1 = k then (e.1, f e.2) else e))
  | j => j
/-- an array with all items changed -/
def every (f : Json → Json) : Json → Json
  | .arr l => .arr (l.map f)
  | j => j
/-- a document without some of the fields of its nodes' and edges' attributes -/
def trimDoc (kn ke : Str → Str → Bool) (j : Json) : Json :=
  change (Str.lit "edges") (every (change (Str.lit "info") (fun a => trim (ke (className a)) a)))
    (change (Str.lit "nodes") (every (change (Str.lit "attributes") (fun a => trim (kn (className a)) a))) j)

theorem find_change (k : Str) (f : Json → Json) (j : Json) (n : Str) : (change k f j).find n = if n = k then (j.find n).map f else j.find n := by
  cases j with
  | obj fs =>
    simp only [change, Json.find]
    induction fs with
    | nil => split <;> rfl
    | cons e fs ih =>
      simp only [List.map_cons, List.find?_cons]
      by_cases h1 : e.1 = k
      · simp only [if_pos h1]
        by_cases h2 : e.1 = n
        · simp only [h2, decide_true]
          rw [if_pos (h2.symm.trans h1)]; rfl
        · simp only [h2, decide_false]; exact ih
      · simp only [if_neg h1]
        by_cases h2 : e.1 = n
        · simp only [h2, decide_true]
          rw [if_neg (fun h => h1 (h2.trans h))]
        · simp only [h2, decide_false]; exact ih
  | _ => simp [change, Json.find]

theorem trim_lacks (keep : Str → Bool) (j : Json) : j.Lacks keep (trim keep j) := by
  cases j with
  | obj fs =>
    intro k v h
    simp only [trim, Json.find] at h ⊢
    cases hk : keep k with
    | true =>
      rw [if_pos rfl, ← h]
      congr 1
      induction fs with
      | nil => rfl
      | cons e fs ih =>
        simp only [List.filter_cons, List.find?_cons] at h ⊢
        by_cases h2 : e.1 = k
        · subst h2; simp [hk]
        · simp only [h2, decide_false] at h ⊢
          split
          · simp only [List.find?_cons, h2, decide_false]; exact ih h
          · exact ih h
    | false =>
      have : (fs.filter (fun e => keep e.1)).find? (fun e => decide (e.1 = k)) = none := by
        rw [List.find?_eq_none]
        intro e he
        simp only [decide_eq_true_eq]
        intro h; subst h
        rw [List.mem_filter, hk] at he
        cases he.2
      rw [this]; rfl
  | _ => intro k v h; cases h

theorem record_lacks (keep : Str → Str → Bool) (k : Str) (names : List Str) (hk : k ∉ names) (j : Json) :
    RecordLacks keep k names j (change k (fun a => trim (keep (className a)) a) j) := by
  refine ⟨fun n hn => ?_, fun a name h1 h2 => ⟨trim (keep (className a)) a, ?_, ?_⟩⟩
  · rw [find_change, if_neg (fun (h : n = k) => hk (h ▸ hn))]
  · rw [find_change, if_pos rfl, h1]; rfl
  · have : className a = name := by simp only [className, h2]
    rw [this]; exact trim_lacks _ _

theorem every_lacks {P : Json → Json → Prop} {f : Json → Json} (h : ∀ j, P j (f j)) (l : List Json) : Listwise P l (l.map f) := by
  induction l with
  | nil => exact .nil
  | cons a l ih => exact .cons (h a) ih

/-- Any fields of the attributes of any document can be removed: the hypothesis of C70 is met by documents for all choices of fields. -/
theorem trimDoc_lacks (kn ke : Str → Str → Bool) (j : Json) : j.DocumentLacks kn ke (trimDoc kn ke j) := by
  refine ⟨fun n hn => ?_, fun l h => ⟨_, ?_, every_lacks (record_lacks kn _ _ (by decide +kernel)) l⟩, fun l h => ⟨_, ?_, every_lacks (record_lacks ke _ _ (by decide +kernel)) l⟩⟩
  · unfold trimDoc
    have : n ≠ Str.lit "edges" ∧ n ≠ Str.lit "nodes" := by
      revert n; decide +kernel
    rw [find_change, if_neg this.1, find_change, if_neg this.2]
  · unfold trimDoc
    rw [find_change, if_neg (by decide +kernel), find_change, if_pos rfl, h]; rfl
  · unfold trimDoc
    rw [find_change, if_pos rfl, find_change, if_neg (by decide +kernel), h]; rfl

/-- the fields that are left: all but positions, names and weights -/
def left (_ k : Str) : Bool := !([Str.lit "position", Str.lit "name", Str.lit "weight"].contains k)
theorem left_type {c : Str} : left c (Str.lit "type") = true := (by decide +kernel : (!([Str.lit "position", Str.lit "name", Str.lit "weight"].contains (Str.lit "type"))) = true)

/-- A graph with nodes of three classes, a trajectory, edges and a mesh, whose document is read without those fields. -/
example : ∃ j, (after ids jsOps).writeJson reader.toJArith stdNodes stdEdges true = .ok j ∧ ∃ h ops',
    reader.readGraph stdNodes stdEdges (trimDoc left left j) = .ok h ∧ Reached (after ids jsOps).layerIds ops' h := by
  obtain ⟨j, h1, h2⟩ := C70_missing_fields jsReached (by decide +kernel) jsPrintable jsNameable (keepNode := left) (keepEdge := left)
    (fun _ => left_type) (fun _ => left_type)
  obtain ⟨h, ops', h3, h4, _⟩ := h2 _ (trimDoc_lacks left left j)
  exact ⟨j, h1, h, ops', h3, h4⟩

/-- A room of which only the class is left. -/
example : ∃ j, (reader.toJArith.nodeAttrs stdNodes (.room {} { name := Str.lit "kitchen" } (OMap.insert ∅ (Str.lit "sink") 0))).text = .ok j ∧
    ∀ j', j.Lacks (fun k => decide (k = Str.lit "type")) j' → (reader.under FileHeader.current.version).nodeAttrs stdNodes j' = .ok (some (.room {} {} ∅)) := by
  obtain ⟨j, h1, h2⟩ := C70_missing_members (E := reader.under FileHeader.current.version) (W := stdNodes) (R' := stdNodes) (a := .room {} { name := Str.lit "kitchen" } (OMap.insert ∅ (Str.lit "sink") 0))
    rfl (by refine ⟨?_, 0, 0, ?_⟩ <;> (unfold Matrix.Sized; decide))
    ⟨⟨by decide +kernel, fun h => absurd h (by decide), by decide, by decide, by decide⟩, by decide +kernel⟩
    stdNodes_once (by decide) (name := Str.lit "RoomNodeAttributes") (by decide +kernel) (by decide +kernel) (by decide +kernel)
  refine ⟨j, h1, fun j' hl => (h2 _ j' (by decide +kernel) hl).trans ?_⟩
  decide +kernel
example : ∃ j, (JArith.edgeAttrs stdEdges { weighted := true, weight := 0 }).text = .ok j ∧
    ∀ j', j.Lacks (fun k => decide (k = Str.lit "type")) j' → reader.edgeAttrs stdEdges j' = .ok (some {}) := by
  obtain ⟨j, h1, h2⟩ := C70_missing_edge_members (E := reader) (V := stdEdges) (Q := stdEdges) (a := { weighted := true, weight := 0 })
    (by decide +kernel) jsNameable.edgesOnce (by decide) (name := Str.lit "EdgeAttributes") (by decide +kernel) (by decide +kernel) (by decide +kernel)
  refine ⟨j, h1, fun j' hl => (h2 _ j' (by decide +kernel) hl).trans ?_⟩
  decide +kernel

/-- a document with an agent node of one field -/
def agentDoc : Json := doc FileHeader.current.version (.arr [.uint 2])
  [(Str.lit "type", .str (Str.lit "AgentNodeAttributes")), (Str.lit "is_active", .bool true)]

/-- **C70, limit.** A document without the key of an agent node is accepted, and gives whatever was in memory: two readers that differ only in
the contents of fresh memory read different graphs from it. -/
theorem C70_uninitialised : ∃ j m m', (∀ h, reader.headerIn j JEnv.headerKey = .ok h → h.version = FileHeader.current.version) ∧
    ∃ g g', ({ reader with fresh := m } : JEnv).readGraph stdNodes stdEdges j = .ok g ∧
      ({ reader with fresh := m' } : JEnv).readGraph stdNodes stdEdges j = .ok g' ∧
      (g.nodeObs 10).map NodeInfo.attrs = some (.agent { isActive := true } { worldRBody := m.body, externalKey := m.key }) ∧
      (g'.nodeObs 10).map NodeInfo.attrs = some (.agent { isActive := true } { worldRBody := m'.body, externalKey := m'.key }) ∧ m.key ≠ m'.key := by
  refine ⟨agentDoc, {}, { key := 7 }, ?_, value (({ reader with fresh := {} } : JEnv).readGraph stdNodes stdEdges agentDoc),
    value (({ reader with fresh := { key := 7 } } : JEnv).readGraph stdNodes stdEdges agentDoc), by decide +kernel, by decide +kernel,
    by decide +kernel, by decide +kernel, by decide +kernel⟩
  have : reader.headerIn agentDoc JEnv.headerKey = .ok ⟨Str.lit "elsewhere", FileHeader.current.version⟩ := by decide +kernel
  intro h hh
  rw [this] at hh
  cases hh
  rfl
end Missing
end Verif
