import Verif.Lemmas.Loadable
/-! # What a reader accepts has finite scalars: attributes and graphs -/

namespace Verif
open Json
namespace Reads
variable {E : JEnv} {fs fs' : List (Str × Json)} (ht : textFields fs = .ok fs') (hn : (fs.map Prod.fst).Nodup)
include ht hn

theorem semantic {s x : SemanticAttrs} (h : E.semanticAttrs (.obj fs') = .ok x) (hs : ∀ e ∈ E.toJArith.semanticAttrs s, e ∈ fs) :
    s.bbox.Printable E.toJArith := by
  unfold JEnv.semanticAttrs at h
  obtain ⟨_, _, h⟩ := bind_eq_ok h
  obtain ⟨_, _, h⟩ := bind_eq_ok h
  obtain ⟨_, g, h⟩ := bind_eq_ok h
  exact bbox (of_field ht hn g (hs _ (List.mem_of_getElem? (i := 2) rfl)))
theorem object {o x : ObjectAttrs} (h : E.objectAttrs (.obj fs') = .ok x) (hs : ∀ e ∈ JArith.objectAttrs o, e ∈ fs) : o.worldRObject.Finite := by
  unfold JEnv.objectAttrs at h
  obtain ⟨_, _, h⟩ := bind_eq_ok h
  obtain ⟨_, _, h⟩ := bind_eq_ok h
  obtain ⟨_, g, h⟩ := bind_eq_ok h
  exact quat (of_field ht hn g (hs _ (List.mem_of_getElem? (i := 2) rfl)))
theorem place {p x : PlaceAttrs} (h : E.placeAttrs (.obj fs') = .ok x) (hs : ∀ e ∈ JArith.placeAttrs p, e ∈ fs) :
    F64.finite p.distance = true ∧ p.orientation.Finite ∧ ∀ x ∈ p.voxblox, x.Finite := by
  unfold JEnv.placeAttrs at h
  obtain ⟨_, g0, h⟩ := bind_eq_ok h
  obtain ⟨_, _, h⟩ := bind_eq_ok h
  obtain ⟨_, g2, h⟩ := bind_eq_ok h
  obtain ⟨_, _, h⟩ := bind_eq_ok h
  obtain ⟨_, _, h⟩ := bind_eq_ok h
  obtain ⟨_, _, h⟩ := bind_eq_ok h
  obtain ⟨_, _, h⟩ := bind_eq_ok h
  obtain ⟨_, _, h⟩ := bind_eq_ok h
  obtain ⟨_, _, h⟩ := bind_eq_ok h
  obtain ⟨_, g9, h⟩ := bind_eq_ok h
  exact ⟨f64 (of_field ht hn g0 (hs _ (List.mem_of_getElem? (i := 0) rfl))), quat (of_field ht hn g9 (hs _ (List.mem_of_getElem? (i := 9) rfl))),
    fun x hx => nvi (vec (of_field ht hn g2 (hs _ (List.mem_of_getElem? (i := 2) rfl))) x hx)⟩
theorem place2d {p x : Place2dAttrs} (h : E.place2dAttrs (.obj fs') = .ok x) (hs : ∀ e ∈ JArith.place2dAttrs p, e ∈ fs) :
    ∀ x ∈ p.voxblox, x.Finite := by
  unfold JEnv.place2dAttrs at h
  obtain ⟨_, _, h⟩ := bind_eq_ok h
  obtain ⟨_, _, h⟩ := bind_eq_ok h
  obtain ⟨_, _, h⟩ := bind_eq_ok h
  obtain ⟨_, _, h⟩ := bind_eq_ok h
  obtain ⟨_, _, h⟩ := bind_eq_ok h
  obtain ⟨_, g5, h⟩ := bind_eq_ok h
  exact fun x hx => nvi (vec (of_field ht hn g5 (hs _ (List.mem_of_getElem? (i := 5) rfl))) x hx)
theorem agent {a x : AgentAttrs} (h : E.agentAttrs (.obj fs') = .ok x) (hs : ∀ e ∈ E.toJArith.agentAttrs a, e ∈ fs) : a.worldRBody.Finite := by
  unfold JEnv.agentAttrs at h
  obtain ⟨_, g, h⟩ := bind_eq_ok h
  exact quat (of_field ht hn g (hs _ (List.mem_of_getElem? (i := 0) rfl)))
omit ht hn

theorem fields {a b : NodeAttrs} {name : Json} (ht : textFields ((Str.lit "type", name) :: E.toJArith.fields a) = .ok fs')
    (h : E.fields (.obj fs') a.cls = .ok b) : a.FiniteScalars E.toJArith := by
  cases a with
  | base b => trivial
  | semantic b s =>
    have hn : (((Str.lit "type", name) :: E.toJArith.fields (.semantic b s)).map Prod.fst).Nodup := by
      simp only [JArith.fields, JArith.baseAttrs, JArith.semanticAttrs, List.map, List.cons_append, List.nil_append]; decide +kernel
    simp only [NodeAttrs.cls, JEnv.fields] at h
    obtain ⟨_, _, h⟩ := bind_eq_ok h
    obtain ⟨_, g, h⟩ := bind_eq_ok h
    exact semantic ht hn g (fun e he => List.mem_cons_of_mem _ (List.mem_append_right _ he))
  | object b s o =>
    have hn : (((Str.lit "type", name) :: E.toJArith.fields (.object b s o)).map Prod.fst).Nodup := by
      simp only [JArith.fields, JArith.baseAttrs, JArith.semanticAttrs, JArith.objectAttrs, List.map, List.cons_append, List.nil_append]; decide +kernel
    simp only [NodeAttrs.cls, JEnv.fields] at h
    obtain ⟨_, _, h⟩ := bind_eq_ok h
    obtain ⟨_, g, h⟩ := bind_eq_ok h
    obtain ⟨_, g', h⟩ := bind_eq_ok h
    exact ⟨semantic ht hn g (fun e he => List.mem_cons_of_mem _ (List.mem_append_left _ (List.mem_append_right _ he))),
      object ht hn g' (fun e he => List.mem_cons_of_mem _ (List.mem_append_right _ he))⟩
  | room b s p =>
    have hn : (((Str.lit "type", name) :: E.toJArith.fields (.room b s p)).map Prod.fst).Nodup := by
      simp only [JArith.fields, JArith.baseAttrs, JArith.semanticAttrs, List.map, List.cons_append, List.nil_append]; decide +kernel
    simp only [NodeAttrs.cls, JEnv.fields] at h
    obtain ⟨_, _, h⟩ := bind_eq_ok h
    obtain ⟨_, g, h⟩ := bind_eq_ok h
    obtain ⟨_, g', h⟩ := bind_eq_ok h
    exact ⟨semantic ht hn g (fun e he => List.mem_cons_of_mem _ (List.mem_append_left _ (List.mem_append_right _ he))),
      fun e he => f64 (map (of_field ht hn g' (List.mem_cons_of_mem _ (List.mem_append_right _ (List.mem_cons_self)))) e he)⟩
  | place b s p =>
    have hn : (((Str.lit "type", name) :: E.toJArith.fields (.place b s p)).map Prod.fst).Nodup := by
      simp only [JArith.fields, JArith.baseAttrs, JArith.semanticAttrs, JArith.placeAttrs, List.map, List.cons_append, List.nil_append]; decide +kernel
    simp only [NodeAttrs.cls, JEnv.fields] at h
    obtain ⟨_, _, h⟩ := bind_eq_ok h
    obtain ⟨_, g, h⟩ := bind_eq_ok h
    obtain ⟨_, g', h⟩ := bind_eq_ok h
    exact ⟨semantic ht hn g (fun e he => List.mem_cons_of_mem _ (List.mem_append_left _ (List.mem_append_right _ he))),
      place ht hn g' (fun e he => List.mem_cons_of_mem _ (List.mem_append_right _ he))⟩
  | place2d b s p =>
    have hn : (((Str.lit "type", name) :: E.toJArith.fields (.place2d b s p)).map Prod.fst).Nodup := by
      simp only [JArith.fields, JArith.baseAttrs, JArith.semanticAttrs, JArith.place2dAttrs, List.map, List.cons_append, List.nil_append]; decide +kernel
    simp only [NodeAttrs.cls, JEnv.fields] at h
    obtain ⟨_, _, h⟩ := bind_eq_ok h
    obtain ⟨_, g, h⟩ := bind_eq_ok h
    obtain ⟨_, g', h⟩ := bind_eq_ok h
    exact ⟨semantic ht hn g (fun e he => List.mem_cons_of_mem _ (List.mem_append_left _ (List.mem_append_right _ he))),
      place2d ht hn g' (fun e he => List.mem_cons_of_mem _ (List.mem_append_right _ he))⟩
  | agent b a =>
    have hn : (((Str.lit "type", name) :: E.toJArith.fields (.agent b a)).map Prod.fst).Nodup := by
      simp only [JArith.fields, JArith.baseAttrs, JArith.agentAttrs, List.map, List.cons_append, List.nil_append]; decide +kernel
    simp only [NodeAttrs.cls, JEnv.fields] at h
    obtain ⟨_, _, h⟩ := bind_eq_ok h
    obtain ⟨_, g, h⟩ := bind_eq_ok h
    exact agent ht hn g (fun e he => List.mem_cons_of_mem _ (List.mem_append_right _ he))
  | khronos b s o k =>
    have hn : (((Str.lit "type", name) :: E.toJArith.fields (.khronos b s o k)).map Prod.fst).Nodup := by
      simp only [JArith.fields, JArith.baseAttrs, JArith.semanticAttrs, JArith.khronosAttrs, List.map, List.cons_append, List.nil_append]; decide +kernel
    simp only [NodeAttrs.cls, JEnv.fields] at h
    obtain ⟨_, _, h⟩ := bind_eq_ok h
    obtain ⟨_, g, h⟩ := bind_eq_ok h
    exact semantic ht hn g (fun e he => List.mem_cons_of_mem _ (List.mem_append_left _ (List.mem_append_right _ he)))

theorem nodeAttrs {W R' : Registry NodeClass} {a : NodeAttrs} (hone : W.Once) (hfew : R'.entries.length ≤ 256) {name : Str} (hu : name.IsText)
    (hw : (name, a.cls) ∈ W.entries) (hr : R'.find? name = some a.cls) (h : Reads (E.toJArith.nodeAttrs W a) (E.nodeAttrs R')) :
    a.FiniteScalars E.toJArith := by
  obtain ⟨v, x, h1, h2⟩ := h
  unfold JArith.nodeAttrs at h1
  rw [Registry.nameOf_eq hone hw] at h1
  obtain ⟨fs', rfl, ht⟩ := text_obj_inv h1
  have t := JRT.type_found hu ht
  have t' : ((Json.obj fs').at' (Str.lit "type") >>= JEnv.str) = .ok name := by
    simp only [Json.at', t, Res.bind_ok]; rfl
  unfold JEnv.nodeAttrs at h2
  simp only [t', Res.bind_ok, Registry.create_eq hfew hr] at h2
  obtain ⟨b, h3, _⟩ := bind_eq_ok h2
  exact fields ht h3
theorem edgeAttrs {V Q : Registry EdgeClass} {a : EdgeAttrs} (hone : V.Once) (hfew : Q.entries.length ≤ 256) {name : Str} (hu : name.IsText)
    (hw : (name, EdgeClass.base) ∈ V.entries) (hr : Q.find? name = some .base) (h : Reads (JArith.edgeAttrs V a) (E.edgeAttrs Q)) :
    F64.finite a.weight = true := by
  obtain ⟨v, x, h1, h2⟩ := h
  unfold JArith.edgeAttrs at h1
  rw [Registry.nameOf_eq hone hw] at h1
  obtain ⟨fs', rfl, ht⟩ := text_obj_inv h1
  have t := JRT.type_found hu ht
  have t' : ((Json.obj fs').at' (Str.lit "type") >>= JEnv.str) = .ok name := by
    simp only [Json.at', t, Res.bind_ok]; rfl
  have hn : ([(Str.lit "type", Json.str name), (Str.lit "weighted", Json.bool a.weighted), (Str.lit "weight", Json.num a.weight)].map Prod.fst).Nodup := by
    simp only [List.map]; decide +kernel
  unfold JEnv.edgeAttrs at h2
  simp only [t', Res.bind_ok, Registry.create_eq hfew hr] at h2
  obtain ⟨_, _, h2⟩ := bind_eq_ok h2
  obtain ⟨_, g, h2⟩ := bind_eq_ok h2
  exact f64 (of_field ht hn g (List.mem_of_getElem? (i := 2) rfl))

/-- a node record that can be read -/
theorem node {W R' : Registry NodeClass} {σ : Spec} {n : NodeId} {i : NodeInfo} {j v : Json} (hj : E.toJArith.node W (σ.mkNode n i) = .ok j)
    (hv : j.text = .ok v) {g g' : Graph} (h : E.readNode R' g v = .ok g') : Reads (E.toJArith.nodeAttrs W i.attrs) (E.nodeAttrs R') := by
  have hat : (σ.mkNode n i).attrs = some i.attrs := rfl
  unfold JArith.node at hj
  rw [hat] at hj
  obtain ⟨a, h1, h2⟩ := bind_eq_ok hj
  cases h1
  cases h2
  obtain ⟨fs', rfl, ht⟩ := text_obj_inv hv
  unfold JEnv.readNode at h
  obtain ⟨_, _, h⟩ := bind_eq_ok h
  obtain ⟨_, _, h⟩ := bind_eq_ok h
  obtain ⟨_, g3, h⟩ := bind_eq_ok h
  refine of_at ht ?_ g3 (List.mem_of_getElem? (i := 2) rfl)
  cases (σ.mkNode n i).timestamp <;> simp only [List.map, List.cons_append, List.nil_append] <;> decide +kernel
/-- an edge record that can be read -/
theorem edge {V Q : Registry EdgeClass} {e : EdgeInfo} {j v : Json} (hj : JArith.edge V (Spec.mkEdge e) = .ok j)
    (hv : j.text = .ok v) {g g' : Graph} (h : E.readEdge Q g v = .ok g') : Reads (JArith.edgeAttrs V e.attrs) (E.edgeAttrs Q) := by
  have hat : (Spec.mkEdge e).info = some e.attrs := rfl
  unfold JArith.edge at hj
  rw [hat] at hj
  obtain ⟨a, h1, h2⟩ := bind_eq_ok hj
  cases h1
  cases h2
  obtain ⟨fs', rfl, ht⟩ := text_obj_inv hv
  unfold JEnv.readEdge at h
  obtain ⟨_, _, h⟩ := bind_eq_ok h
  obtain ⟨_, _, h⟩ := bind_eq_ok h
  obtain ⟨_, g3, h⟩ := bind_eq_ok h
  refine of_at ht ?_ g3 (List.mem_of_getElem? (i := 2) rfl)
  simp only [List.map]; decide +kernel
end Reads

/-- the header of a document -/
theorem Graph.writeJson_header {g : Graph} {F : JArith} {W : Registry NodeClass} {V : Registry EdgeClass} {incl : Bool} {j : Json}
    (hj : g.writeJson F W V incl = .ok j) (E : JEnv) : E.headerIn j JEnv.headerKey = .ok FileHeader.current := by
  unfold Graph.writeJson at hj
  obtain ⟨js, n1, hj⟩ := bind_eq_ok hj
  obtain ⟨es, e1, hj⟩ := bind_eq_ok hj
  obtain ⟨ms, m1, hj⟩ := bind_eq_ok hj
  obtain ⟨fs', rfl, ht⟩ := text_obj_inv hj
  have := textFields_find ht JEnv.headerKey
  simp only [List.cons_append, List.find?_cons, decide_true] at this
  obtain ⟨v, h1, h2⟩ := this
  simp only [JEnv.headerIn, Json.find, h2, Option.map_some]
  exact (JRT.header E FileHeader.current (by decide +kernel)).use h1

/-- A document that can be read was written from a graph with finite scalars. -/
theorem R.loadable {g : Graph} {σ : Spec} (hg : R g σ) (hw : SWF σ) (hlen : ∀ d ∈ g.dynList, d.nodes.length < 2 ^ 32) {E : JEnv}
    {W R' : Registry NodeClass} {V Q : Registry EdgeClass} (hu : g.Nameable W R' V Q) {incl : Bool} {j : Json}
    (hj : g.writeJson E.toJArith W V incl = .ok j) {h : Graph} (hh : E.readGraph R' Q j = .ok h) : g.FiniteScalars E.toJArith := by
  unfold Graph.writeJson at hj
  obtain ⟨js, n1, hj⟩ := bind_eq_ok hj
  obtain ⟨es, e1, hj⟩ := bind_eq_ok hj
  obtain ⟨ms, m1, hj⟩ := bind_eq_ok hj
  obtain ⟨fs', rfl, ht⟩ := text_obj_inv hj
  have hms : ms.map Prod.fst = [] ∨ ms.map Prod.fst = [Str.lit "mesh"] := by
    unfold JArith.meshField at m1
    split at m1
    · cases m1; exact .inl rfl
    · obtain ⟨x, _, m2⟩ := bind_eq_ok m1
      cases m2; exact .inr rfl
  have hn : (([(JEnv.headerKey, JArith.header FileHeader.current), (Str.lit "directed", .bool false), (Str.lit "multigraph", .bool false),
    (Str.lit "nodes", .arr js), (Str.lit "edges", .arr es), (Str.lit "layer_ids", JArith.vec Json.uint g.layerIds)] ++ ms).map Prod.fst).Nodup := by
    rw [List.map_append]
    rcases hms with hms | hms <;> rw [hms] <;> simp only [List.map, List.cons_append, List.nil_append] <;> decide +kernel
  obtain ⟨xn, y1, y2⟩ := JRT.get ht hn (List.mem_append_left _ (List.mem_of_getElem? (i := 3) rfl))
  obtain ⟨xe, z1, z2⟩ := JRT.get ht hn (List.mem_append_left _ (List.mem_of_getElem? (i := 4) rfl))
  obtain ⟨js', rfl, tn⟩ := text_arr_inv y1
  obtain ⟨es', rfl, te⟩ := text_arr_inv z1
  obtain ⟨xh, x1, x2⟩ := JRT.get ht hn (List.mem_append_left _ (List.mem_of_getElem? (i := 0) rfl))
  have a1 : E.headerIn (.obj fs') JEnv.headerKey = .ok FileHeader.current := by
    simp only [JEnv.headerIn, x2]
    exact (JRT.header E FileHeader.current (by decide +kernel)).use x1
  unfold JEnv.readGraph at hh
  simp only [a1, Res.bind_ok, Json.at', y2, z2, Json.items] at hh
  obtain ⟨_, _, hh⟩ := bind_eq_ok hh
  obtain ⟨_, _, hh⟩ := bind_eq_ok hh
  obtain ⟨_, q1, hh⟩ := bind_eq_ok hh
  obtain ⟨_, q2, hh⟩ := bind_eq_ok hh
  rw [textAll_eq] at tn te
  refine ⟨fun n i hi => ?_, fun a b i hi => ?_⟩
  · obtain ⟨name, u1, u2, u3⟩ := hu.nodes n i hi
    rw [hg.nodeObs hw] at hi
    obtain ⟨x, hx, hxe⟩ := List.mem_map.1 ((hg.mem_nodes hw hlen n i).2 hi)
    have hid : x.id = n := congrArg Prod.fst hxe
    obtain ⟨k, b, hb, hx'⟩ := (g.mem_recs x).1 hx
    obtain ⟨i', w1, _, w3⟩ := hg.recs_entry hlen hb hx'
    rw [hid, hi] at w1
    cases w1
    obtain ⟨jx, p1, p2⟩ := allRes_each n1 x hx
    obtain ⟨v, p3, p4⟩ := allRes_each tn jx p1
    obtain ⟨s, t, p5⟩ := foldRes_each q1 v p3
    rw [w3] at p2
    exact Reads.nodeAttrs (E := E.under FileHeader.current.version) hu.nodesOnce hu.nodesFew u1 u2 u3 (Reads.node p2 p4 p5)
  · obtain ⟨name, u1, u2, u3⟩ := hu.edges
    rw [hg.edgeObs hw] at hi
    have hk : σ.edges.find? (EdgeKey.of a b) = some i := hi
    obtain ⟨c, hcc⟩ := Option.isSome_iff_exists.1 (Spec.placeOf_some hw (OMap.contains_eq_true.2 ⟨i, hk⟩))
    have hm : Spec.mkEdge i ∈ g.jsonEdges := g.jsonEdges_perm.mem_iff.2 ((g.mem_allEdges _).2 ⟨c, EdgeKey.of a b, by
      rw [(RV.ec hg c).edges]
      simp [Spec.edgeRec, hk, hcc]⟩)
    obtain ⟨jx, p1, p2⟩ := allRes_each e1 _ hm
    obtain ⟨v, p3, p4⟩ := allRes_each te jx p1
    obtain ⟨s, t, p5⟩ := foldRes_each q2 v p3
    exact Reads.edgeAttrs (E := E.under FileHeader.current.version) hu.edgesOnce hu.edgesFew u1 u2 u3 (Reads.edge p2 p4 p5)

theorem Graph.FiniteScalars.printable {g : Graph} {F : JArith} (h : g.FiniteScalars F) (hs : g.Shaped) {W : Registry NodeClass} {V : Registry EdgeClass}
    (ht : g.OnlyText W V) : g.Printable F where
  plain := hs.plain
  slots := hs.slots
  typed := hs.typed
  edges := h.edges
  nodes := fun n i hi => by
    have h1 := h.nodes n i hi
    have h2 := hs.sizes n i hi
    have h3 := ht.strings n i hi
    generalize i.attrs = a at h1 h2 h3
    cases a with
    | base b => trivial
    | semantic b s => exact ⟨h3 _ List.mem_cons_self, h1, h2⟩
    | object b s o => exact ⟨⟨h3 _ List.mem_cons_self, h1.1, h2⟩, h1.2⟩
    | room b s p => exact ⟨⟨h3 _ List.mem_cons_self, h1.1, h2⟩, fun e he => ⟨h3 _ (List.mem_cons_of_mem _ (List.mem_map.2 ⟨e, he, rfl⟩)), h1.2 e he⟩⟩
    | place b s p => exact ⟨⟨h3 _ List.mem_cons_self, h1.1, h2⟩, h1.2⟩
    | place2d b s p => exact ⟨⟨h3 _ List.mem_cons_self, h1.1, h2⟩, h1.2⟩
    | agent b a => exact ⟨h1, h2⟩
    | khronos b s o k => exact ⟨⟨h3 _ List.mem_cons_self, h1, h2⟩, fun e he => h3 _ (List.mem_cons_of_mem _ (List.mem_map.2 ⟨e, he, rfl⟩))⟩
end Verif
