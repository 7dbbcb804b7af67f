import Verif.Lemmas.Missing2
/-! # The whole graph -/

namespace Verif
open Json

theorem Graph.jsonEdges_perm (g : Graph) : g.jsonEdges.Perm g.allEdges := by
  unfold Graph.jsonEdges Graph.allEdges
  rw [List.append_assoc, List.append_assoc, List.append_assoc, List.append_assoc]
  refine List.Perm.append_left _ ?_
  rw [← List.append_assoc, ← List.append_assoc]
  exact List.perm_append_comm.trans (by rw [List.append_assoc])

/-- The attributes of which the fields are read that `keep` names for their class. -/
def NodeAttrs.partly (F : JArith) (W : Registry NodeClass) (memory : Garbage) (keep : Str → Str → Bool) (a : NodeAttrs) : NodeAttrs :=
  (a.jsonKept F).only memory (keep (W.nameOf a.cls))

/-- The document of a graph, printed and parsed, and what is read from a document that lacks fields of attributes. -/
theorem R.json {g : Graph} {σ : Spec} (hg : R g σ) (hw : SWF σ) (hne : g.layerIds ≠ []) {E : JEnv} (hF : E.toJArith.Exact)
    {incl : Bool} (hp : g.Printable E.toJArith) {W R' : Registry NodeClass} {V Q : Registry EdgeClass} (hu : g.Nameable W R' V Q)
    {kn ke : Str → Str → Bool} (hkn : ∀ c, kn c (Str.lit "type") = true) (hke : ∀ c, ke c (Str.lit "type") = true) :
    ∃ j, g.writeJson E.toJArith W V incl = .ok j ∧ ∀ j', j.DocumentLacks kn ke j' → ∃ h ops τ, E.readGraph R' Q j' = .ok h ∧
      Reached g.layerIds ops h ∧ R h τ ∧ SWF τ ∧ τ.layerIds = σ.layerIds ∧ τ.mesh = (if incl then g.mesh.map Mesh.printed else none) ∧
      (∀ n, τ.nodes.find? n = (σ.nodes.find? n).map (fun i => (i.with (NodeAttrs.partly E.toJArith W E.fresh kn)).cloned)) ∧
      (∀ k, τ.edges.find? k = (σ.edges.find? k).map (EdgeInfo.with (EdgeAttrs.only (ke (V.nameOf .base))))) := by
  let E' := E.under FileHeader.current.version
  have hF' : E'.toJArith.Exact := hF
  have hv' : E'.version = FileHeader.current.version := rfl
  have hobs : ∀ n i, σ.nodes.find? n = some i → g.nodeObs n = some i := fun n i hi => by rw [hg.nodeObs hw]; exact hi
  have hidx : ∀ n k, σ.key? n = some k → k.dynamic = true → n.toNat % 2 ^ 32 ≠ 2 ^ 32 - 1 := fun n k hn hd => hg.small_index hp.slots hn hd
  let N := (g.staticNodes ++ g.dynNodes).map σ.entry
  have hids : (N.map Prod.fst).Nodup := by
    have := hg.recs_ids_nodup hp.slots
    simp only [N, List.map_map]
    exact this
  have hmem : ∀ n i, (n, i) ∈ N ↔ σ.nodes.find? n = some i := hg.mem_nodes hw hp.slots
  have hN : N.map (fun e => σ.mkNode e.1 e.2) = g.jsonNodes := by
    simp only [N, List.map_map]
    refine Eq.symm ((List.map_id g.jsonNodes).symm.trans (List.map_congr_left ?_))
    intro x hx
    obtain ⟨k, b, hb, hx⟩ := (g.mem_recs x).1 hx
    obtain ⟨i, h1, _, h3⟩ := hg.recs_entry hp.slots hb hx
    show x = σ.mkNode x.id ((σ.nodes.find? x.id).getD _)
    rw [h1]
    exact h3
  let Es := g.jsonEdges.map Spec.edgeEntry
  have hEmem : ∀ x, x ∈ g.jsonEdges ↔ x ∈ g.allEdges := fun x => g.jsonEdges_perm.mem_iff
  have hek : (Es.map Spec.ekey).Nodup := by
    simp only [Es, List.map_map]
    refine ((g.jsonEdges_perm.map _).nodup_iff).2 ?_
    exact hg.edges_nodup hw
  have hmemE : ∀ e, e ∈ Es ↔ σ.edges.find? (Spec.ekey e) = some e := by
    intro e
    simp only [Es, List.mem_map, hEmem]
    constructor
    · rintro ⟨x, hx, rfl⟩
      obtain ⟨c, k, hk⟩ := (g.mem_allEdges x).1 hx
      obtain ⟨h1, h2, _, _⟩ := hg.edge_rec hw hk
      rw [show Spec.ekey (Spec.edgeEntry x) = k from h1.symm]
      exact h2
    · intro he
      refine ⟨Spec.mkEdge e, (g.mem_allEdges _).2 ?_, rfl⟩
      obtain ⟨c, hc⟩ := Option.isSome_iff_exists.1 (Spec.placeOf_some hw (OMap.contains_eq_true.2 ⟨e, he⟩))
      refine ⟨c, Spec.ekey e, ?_⟩
      rw [(RV.ec hg c).edges]
      simp [Spec.edgeRec, he, hc]
  have hEs : Es.map Spec.mkEdge = g.jsonEdges := by
    simp only [Es, List.map_map]
    refine Eq.symm ((List.map_id g.jsonEdges).symm.trans (List.map_congr_left ?_))
    intro e he
    obtain ⟨c, k, hk⟩ := (g.mem_allEdges e).1 ((hEmem e).1 he)
    exact (hg.edge_rec hw hk).2.2.1
  obtain ⟨h0, h1, h2, ops, τ, c0, c1, c2, hre, rr, rw', d1, d2, d3, d4, _⟩ :=
    hg.rebuild hw hne hidx (NodeAttrs.partly E.toJArith W E.fresh kn) (EdgeAttrs.only (ke (V.nameOf .base))) N hids hmem Es hek hmemE (if incl then g.mesh.map Mesh.printed else none)
  -- nodes and edges
  obtain ⟨js, js', n1, n2, n3⟩ := JRT.records_partly (w := E.toJArith.node W) (r := E'.readNode R') (φ := fun e => σ.mkNode e.1 e.2)
      (L := RecordLacks kn (Str.lit "attributes") [Str.lit "id", Str.lit "layer", Str.lit "timestamp"])
      (op := fun e => cloneOp (e.1, e.2.with (NodeAttrs.partly E.toJArith W E.fresh kn))) (l := N) (by
    rintro ⟨n, i⟩ he
    have hi := (hmem n i).1 he
    have ho := hobs n i hi
    obtain ⟨name, u1, u2, u3⟩ := hu.nodes n i ho
    have hst : i.stamp.isSome = i.key.dynamic := ?_
    · obtain ⟨j, j', q1, q2, q3⟩ := JRT.node_partly E' (σ := σ) (n := n) hst
        (JRT.nodeAttrs_partly E' hF' hv' (hp.typed n i ho) (hp.nodes n i ho) hu.nodesOnce hu.nodesFew u1 u2 u3)
      exact ⟨j, j', q1, q2, fun j'' hl h => q3 kn j'' (hkn _) hl h⟩
    cases hk : i.key with
    | static l =>
      have := hp.plain n i ho (by rw [hk]; rfl)
      rw [this]; rfl
    | dyn l p => exact (hw.dyn n i l p hi hk).2.2)
  obtain ⟨es, es', e1, e2, e3⟩ := JRT.records_partly (w := JArith.edge V) (r := E'.readEdge Q) (φ := Spec.mkEdge)
      (L := RecordLacks ke (Str.lit "info") [Str.lit "source", Str.lit "target"])
      (op := fun e => cloneEdgeOp (e.with (EdgeAttrs.only (ke (V.nameOf .base))))) (l := Es) (by
    intro e he
    have hk := (hmemE e).1 he
    obtain ⟨name, u1, u2, u3⟩ := hu.edges
    have hf : F64.finite e.attrs.weight = true := hp.edges e.src e.tgt e (by rw [hg.edgeObs hw]; exact hk)
    obtain ⟨j, j', q1, q2, q3⟩ := JRT.edge_partly E' (JRT.edgeAttrs_partly E' hf hu.edgesOnce hu.edgesFew u1 u2 u3)
    exact ⟨j, j', q1, q2, fun j'' hl h => q3 ke j'' (hke _) hl h⟩)
  rw [hN] at n1
  rw [hEs] at e1
  -- the mesh
  obtain ⟨ms, m1, m2⟩ : ∃ ms : List (Str × Json), E.toJArith.meshField (if incl then g.mesh else none) = .ok ms ∧
      ((if incl then g.mesh.map Mesh.printed else none) = none ∧ ms = [] ∨
        ∃ m jm jm', (if incl then g.mesh.map Mesh.printed else none) = some m ∧ ms = [(Str.lit "mesh", jm)] ∧ jm.text = .ok jm' ∧
          (do
            let x ← jm'.text
            E'.meshDoc x) = .ok m) := by
    rw [show (if incl then g.mesh.map Mesh.printed else none) = (if incl then g.mesh else none).map Mesh.printed by cases incl <;> rfl]
    cases hm : (if incl then g.mesh else none) with
    | none => exact ⟨[], rfl, .inl ⟨rfl, rfl⟩⟩
    | some m =>
      obtain ⟨jm, t1, t2⟩ := JRT.meshDoc E' m
      have t4 := Json.text_text t1
      refine ⟨[(Str.lit "mesh", jm)], ?_, .inr ⟨m.printed, jm, jm, rfl, rfl, t4, ?_⟩⟩
      · unfold JArith.meshField
        simp only
        rw [show (E.toJArith.mesh m).text = .ok jm from t1]
        rfl
      · simp only [t4, Res.bind_ok, t2]
  -- the document
  let fs : List (Str × Json) := [(JEnv.headerKey, JArith.header FileHeader.current), (Str.lit "directed", .bool false), (Str.lit "multigraph", .bool false),
    (Str.lit "nodes", .arr js), (Str.lit "edges", .arr es), (Str.lit "layer_ids", JArith.vec Json.uint g.layerIds)] ++ ms
  have rh := JRT.header E FileHeader.current (by decide +kernel)
  have rl : JRT (JArith.vec Json.uint g.layerIds) (JEnv.vec E.u64) g.layerIds := JRT.vec (fun b _ => JRT.u64 E b)
  have tn : (Json.arr js).text = .ok (.arr js') := by simp only [Json.text, n2, Res.bind_ok, Res.pure_eq]
  have te : (Json.arr es).text = .ok (.arr es') := by simp only [Json.text, e2, Res.bind_ok, Res.pure_eq]
  have tms : Tx ms := by
    rcases m2 with ⟨_, rfl⟩ | ⟨m, jm, jm', _, rfl, t, _⟩
    · exact Tx.nil
    · exact Tx.cons (by decide +kernel) ⟨_, t⟩ .nil
  have tx : Tx fs := Tx.append (.cons (by decide +kernel) rh.textual <| .cons (by decide +kernel) (JRT.bool _).textual <|
    .cons (by decide +kernel) (JRT.bool _).textual <| .cons (by decide +kernel) ⟨_, tn⟩ <| .cons (by decide +kernel) ⟨_, te⟩ <|
    .cons (by decide +kernel) rl.textual .nil) tms
  obtain ⟨fs', ht⟩ := textFields_ok tx
  have hn : (fs.map Prod.fst).Nodup := by
    rcases m2 with ⟨_, rfl⟩ | ⟨m, jm, jm', _, rfl, _⟩ <;>
    · simp only [fs, List.map, List.cons_append, List.nil_append]; decide +kernel
  have hin : ∀ (k : Nat) (e : Str × Json), fs[k]? = some e → e ∈ fs := fun k e h => List.mem_of_getElem? h
  obtain ⟨xh, x1, x2⟩ := JRT.get ht hn (hin 0 _ rfl)
  obtain ⟨xn, y1, y2⟩ := JRT.get ht hn (hin 3 _ rfl)
  obtain ⟨xe, z1, z2⟩ := JRT.get ht hn (hin 4 _ rfl)
  rw [tn] at y1
  cases y1
  rw [te] at z1
  cases z1
  refine ⟨.obj fs', ?_, fun j' hl => ?_⟩
  · unfold Graph.writeJson
    simp only [n1, e1, Res.bind_ok]
    rw [m1]
    simp only [Res.bind_ok]
    exact obj_text ht
  have s1 := hl.same _ (List.mem_cons_self)
  have s2 := hl.same (Str.lit "layer_ids") (by simp)
  have s3 := hl.same (Str.lit "mesh") (by simp)
  obtain ⟨js'', k2, k3⟩ := hl.nodes _ y2
  obtain ⟨es'', k5, k6⟩ := hl.edges _ z2
  have a1 : E.headerIn j' JEnv.headerKey = .ok FileHeader.current := by
    simp only [JEnv.headerIn]
    rw [show j'.find JEnv.headerKey = some xh from s1.trans x2]
    exact rh.use x1
  have a2 := (JRT.same_at s2).trans (rl.at' ht hn (hin 5 _ rfl))
  have a3 : j'.at' (Str.lit "nodes") = .ok (.arr js'') := by simp only [Json.at', k2]
  have a4 : j'.at' (Str.lit "edges") = .ok (.arr es'') := by simp only [Json.at', k5]
  have a5 : foldRes (E'.readNode R') h0 js'' = .ok h1 := by rw [n3 _ k3]; exact c1
  have a6 : foldRes (E'.readEdge Q) h1 es'' = .ok h2 := by rw [e3 _ k6]; exact c2
  refine ⟨_, ops, τ, ?_, hre, rr, rw', d1, d2, d3, d4⟩
  · unfold JEnv.readGraph
    simp only [a1, a2, c0, a3, a4, Res.bind_ok, Json.items]
    rw [show foldRes ((E.under FileHeader.current.version).readNode R') h0 js'' = .ok h1 from a5]
    simp only [Res.bind_ok]
    rw [show foldRes ((E.under FileHeader.current.version).readEdge Q) h1 es'' = .ok h2 from a6]
    simp only [Res.bind_ok]
    rcases m2 with ⟨q1, rfl⟩ | ⟨m, jm, jm', q1, rfl, t, q2⟩
    · have : (Json.obj fs').find (Str.lit "mesh") = none :=
        JRT.get_none ht (show Str.lit "mesh" ∉ _ by simp only [fs, List.map, List.cons_append, List.nil_append]; decide +kernel)
      rw [q1, s3, this]
      rfl
    · obtain ⟨xm, w1, w2⟩ := JRT.get ht hn (hin 6 _ rfl)
      rw [t] at w1
      cases w1
      rw [q1, s3, w2]
      obtain ⟨y, v1, v2⟩ := bind_eq_ok q2
      simp only [v1, Res.bind_ok, show (E.under FileHeader.current.version).meshDoc y = .ok m from v2]
      rfl

/-- The whole document. -/
theorem R.json_whole {g : Graph} {σ : Spec} (hg : R g σ) (hw : SWF σ) (hne : g.layerIds ≠ []) {E : JEnv} (hF : E.toJArith.Exact)
    {incl : Bool} (hp : g.Printable E.toJArith) {W R' : Registry NodeClass} {V Q : Registry EdgeClass} (hu : g.Nameable W R' V Q) :
    ∃ j h ops τ, g.writeJson E.toJArith W V incl = .ok j ∧ E.readGraph R' Q j = .ok h ∧ Reached g.layerIds ops h ∧ R h τ ∧ SWF τ ∧
      τ.layerIds = σ.layerIds ∧ τ.mesh = (if incl then g.mesh.map Mesh.printed else none) ∧
      (∀ n, τ.nodes.find? n = (σ.nodes.find? n).map (fun i => (i.with (NodeAttrs.jsonKept E.toJArith)).cloned)) ∧
      (∀ k, τ.edges.find? k = σ.edges.find? k) := by
  obtain ⟨j, h1, h2⟩ := hg.json hw hne hF hp hu (kn := fun _ _ => true) (ke := fun _ _ => true) (fun _ => rfl) (fun _ => rfl)
  obtain ⟨h, ops, τ, h3, h4, h5, h6, h7, h8, h9, h10⟩ := h2 j (DocumentLacks.refl j)
  refine ⟨j, h, ops, τ, h1, h3, h4, h5, h6, h7, h8, fun n => ?_, fun k => ?_⟩
  · rw [h9, show NodeAttrs.partly E.toJArith W E.fresh (fun _ _ => true) = NodeAttrs.jsonKept E.toJArith from
      funext (fun a => NodeAttrs.only_all _ _)]
  · rw [h10]
    cases σ.edges.find? k <;> rfl

end Verif
