import Verif.Lemmas.OnlyText
/-! # The document of a graph has no other strings -/

namespace Verif
open Json

theorem clean_records {α : Type} {w : α → Res Json} {c : α → Bool} {l : List α} (h : ∀ a ∈ l, ∃ j, w a = .ok j ∧ j.clean = c a) :
    ∃ js, allRes w l = .ok js ∧ cleanAll js = l.all c := by
  induction l with
  | nil => exact ⟨[], rfl, rfl⟩
  | cons a l ih =>
    obtain ⟨j, h1, h2⟩ := h a List.mem_cons_self
    obtain ⟨js, h3, h4⟩ := ih fun x hx => h x (List.mem_cons_of_mem _ hx)
    refine ⟨j :: js, ?_, ?_⟩
    · simp only [allRes, h1, h3, bind, Res.bind, pure]
    · simp only [cleanAll, List.all_cons, h2, h4]

theorem JArith.clean_node (F : JArith) (W : Registry NodeClass) (σ : Spec) (n : NodeId) (i : NodeInfo) :
    ∃ j, F.node W (σ.mkNode n i) = .ok j ∧ j.clean = (utf8 (W.nameOf i.attrs.cls) && i.attrs.strings.all utf8) := by
  refine ⟨_, rfl, ?_⟩
  rw [← F.clean_nodeAttrs W i.attrs, clean, cleanFields_append]
  have h1 : ∀ t : Option UInt64, cleanFields (match t with | none => [] | some t => [(Str.lit "timestamp", Json.int t)]) = true := by
    intro t
    cases t with
    | none => rfl
    | some t => simp only [cleanFields, clean]; decide +kernel
  have h2 : ∀ b : Bool, (utf8 (Str.lit "id") && true && (utf8 (Str.lit "layer") && true && (utf8 (Str.lit "attributes") && b && true))) = b := by
    decide +kernel
  refine Eq.trans (congrArg (and _) (h1 _)) (Eq.trans (Bool.and_true _) ?_)
  simp only [cleanFields, clean]
  exact h2 _

theorem JArith.clean_edge (V : Registry EdgeClass) (e : EdgeInfo) :
    ∃ j, JArith.edge V (Spec.mkEdge e) = .ok j ∧ j.clean = utf8 (V.nameOf .base) := by
  refine ⟨_, rfl, ?_⟩
  rw [← JArith.clean_edgeAttrs V e.attrs]
  have h2 : ∀ b : Bool, (utf8 (Str.lit "source") && true && (utf8 (Str.lit "target") && true && (utf8 (Str.lit "info") && b && true))) = b := by
    decide +kernel
  simp only [clean, cleanFields]
  exact h2 _

theorem R.prints {g : Graph} {σ : Spec} (hg : R g σ) (hw : SWF σ) (hlen : ∀ d ∈ g.dynList, d.nodes.length < 2 ^ 32) (F : JArith)
    (W : Registry NodeClass) (V : Registry EdgeClass) (incl : Bool) :
    (g.OnlyText W V → ∃ j, g.writeJson F W V incl = .ok j) ∧ (¬ g.OnlyText W V → g.writeJson F W V incl = .throw .json) := by
  obtain ⟨js, n1, n2⟩ := clean_records (w := F.node W)
      (c := fun x => ((σ.nodes.find? x.id).map (fun i => utf8 (W.nameOf i.attrs.cls) && i.attrs.strings.all utf8)).getD true) (l := g.jsonNodes) (by
    intro x hx
    obtain ⟨k, b, hb, hx⟩ := (g.mem_recs x).1 hx
    obtain ⟨i, h1, _, h3⟩ := hg.recs_entry hlen hb hx
    rw [h1, h3]
    exact F.clean_node W σ x.id i)
  obtain ⟨es, e1, e2⟩ := clean_records (w := JArith.edge V) (c := fun _ => utf8 (V.nameOf .base)) (l := g.jsonEdges) (by
    intro e he
    obtain ⟨c, k, hk⟩ := (g.mem_allEdges e).1 (g.jsonEdges_perm.mem_iff.1 he)
    rw [(hg.edge_rec hw hk).2.2.1]
    exact JArith.clean_edge V _)
  obtain ⟨ms, m1, m2⟩ : ∃ ms : List (Str × Json), F.meshField (if incl then g.mesh else none) = .ok ms ∧ cleanFields ms = true := by
    cases (if incl then g.mesh else none) with
    | none => exact ⟨[], rfl, rfl⟩
    | some m =>
      obtain ⟨j', hj⟩ := (Json.prints (F.mesh m)).1 (F.clean_mesh m)
      refine ⟨[(Str.lit "mesh", j')], by simp only [JArith.meshField, hj, bind, Res.bind, pure], ?_⟩
      simp only [cleanFields, clean_text _ _ hj]; decide +kernel
  have hwr : g.writeJson F W V incl = (Json.obj ([(JEnv.headerKey, JArith.header FileHeader.current), (Str.lit "directed", .bool false),
      (Str.lit "multigraph", .bool false), (Str.lit "nodes", .arr js), (Str.lit "edges", .arr es),
      (Str.lit "layer_ids", JArith.vec Json.uint g.layerIds)] ++ ms)).text := by
    simp only [Graph.writeJson, n1, e1, m1, bind, Res.bind]
  have h2 : ∀ a b : Bool, (utf8 JEnv.headerKey && true && (utf8 (Str.lit "directed") && true && (utf8 (Str.lit "multigraph") && true &&
      (utf8 (Str.lit "nodes") && a && (utf8 (Str.lit "edges") && b && (utf8 (Str.lit "layer_ids") && true && true)))))) = (a && b) := by
    decide +kernel
  have hc : (Json.obj ([(JEnv.headerKey, JArith.header FileHeader.current), (Str.lit "directed", .bool false),
      (Str.lit "multigraph", .bool false), (Str.lit "nodes", .arr js), (Str.lit "edges", .arr es),
      (Str.lit "layer_ids", JArith.vec Json.uint g.layerIds)] ++ ms)).clean = (cleanAll js && cleanAll es) := by
    rw [clean, cleanFields_append, m2, Bool.and_true, ← h2]
    simp only [cleanFields, clean, JArith.clean_header, JArith.clean_vec JArith.clean_uint]
  have hp := Json.prints (Json.obj ([(JEnv.headerKey, JArith.header FileHeader.current), (Str.lit "directed", .bool false),
      (Str.lit "multigraph", .bool false), (Str.lit "nodes", .arr js), (Str.lit "edges", .arr es),
      (Str.lit "layer_ids", JArith.vec Json.uint g.layerIds)] ++ ms))
  rw [hc, ← hwr] at hp
  have key : (cleanAll js && cleanAll es) = true ↔ g.OnlyText W V := by
    rw [Bool.and_eq_true, n2, e2, List.all_eq_true, List.all_eq_true]
    constructor
    · rintro ⟨hn, he⟩
      have hnode : ∀ n i, g.nodeObs n = some i → (utf8 (W.nameOf i.attrs.cls) && i.attrs.strings.all utf8) = true := by
        intro n i hi
        rw [hg.nodeObs hw] at hi
        obtain ⟨x, hx, hxe⟩ := List.mem_map.1 ((hg.mem_nodes hw hlen n i).2 hi)
        have : x.id = n := congrArg Prod.fst hxe
        have h3 := hn x hx
        rw [this, hi] at h3
        exact h3
      refine ⟨fun n i hi => ?_, fun n i hi s hs => ?_, fun a b i hi => ?_⟩
      · have := hnode n i hi
        rw [Bool.and_eq_true] at this
        exact (utf8_iff _).1 this.1
      · have := hnode n i hi
        rw [Bool.and_eq_true, List.all_eq_true] at this
        exact (utf8_iff _).1 (this.2 s hs)
      · rw [hg.edgeObs hw] at hi
        have hk : σ.edges.find? (EdgeKey.of a b) = some i := hi
        obtain ⟨c, hcc⟩ := Option.isSome_iff_exists.1 (Spec.placeOf_some hw (OMap.contains_eq_true.2 ⟨i, hk⟩))
        have hm : Spec.mkEdge i ∈ g.jsonEdges := g.jsonEdges_perm.mem_iff.2 ((g.mem_allEdges _).2 ⟨c, EdgeKey.of a b, by
          rw [(RV.ec hg c).edges]
          simp [Spec.edgeRec, hk, hcc]⟩)
        exact (utf8_iff _).1 (he _ hm)
    · intro h
      refine ⟨fun x hx => ?_, fun e he => ?_⟩
      · obtain ⟨k, b, hb, hx⟩ := (g.mem_recs x).1 hx
        obtain ⟨i, h1, _, _⟩ := hg.recs_entry hlen hb hx
        have ho : g.nodeObs x.id = some i := by rw [hg.nodeObs hw]; exact h1
        rw [h1]
        simp only [Option.map_some, Option.getD_some, Bool.and_eq_true, List.all_eq_true]
        exact ⟨(utf8_iff _).2 (h.classes _ _ ho), fun s hs => (utf8_iff _).2 (h.strings _ _ ho s hs)⟩
      · obtain ⟨c, k, hk⟩ := (g.mem_allEdges e).1 (g.jsonEdges_perm.mem_iff.1 he)
        obtain ⟨h1, h2, _, _⟩ := hg.edge_rec hw hk
        refine (utf8_iff _).2 (h.edges e.source e.target (Spec.edgeEntry e) ?_)
        rw [hg.edgeObs hw]
        rw [h1] at h2
        exact h2
  refine ⟨fun h => hp.1 (key.2 h), fun h => hp.2 ?_⟩
  cases hb : (cleanAll js && cleanAll es) with
  | false => rfl
  | true => exact absurd (key.1 hb) h
end Verif
