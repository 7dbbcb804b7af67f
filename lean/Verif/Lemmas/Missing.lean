import Verif.Lemmas.Json5
import Verif.Spec.Missing
/-! # Reading attributes of which fields are missing -/

namespace Verif
open Json
namespace JRT

/-- a field that is there or not -/
theorem lacks {α : Type} {fs fs' : List (Str × Json)} {r : Json → Res α} {a : α} {j : Json} (ht : textFields fs = .ok fs')
    (hn : (fs.map Prod.fst).Nodup) {keep : Str → Bool} {j' : Json} (hl : (Json.obj fs').Lacks keep j') {k : Str} (hm : (k, j) ∈ fs)
    (h : JRT j r a) (d : α) : JEnv.field j' k d r = .ok (pick keep k a d) := by
  obtain ⟨v, h1, h2⟩ := get ht hn hm
  have := hl k v h2
  unfold JEnv.field pick
  rw [this]
  cases keep k with
  | true => exact h.use h1
  | false => rfl

variable (E : JEnv) {fs fs' : List (Str × Json)} {keep : Str → Bool} {j' : Json}

theorem base_only {b : BaseAttrs} (hv : E.version = FileHeader.current.version) (ht : textFields fs = .ok fs')
    (hn : (fs.map Prod.fst).Nodup) (hl : (Json.obj fs').Lacks keep j') (hs : ∀ e ∈ JArith.baseAttrs b, e ∈ fs) : E.baseAttrs j' = .ok (b.printed.only keep) := by
  have hver : E.version.lt ⟨1, 0, 4⟩ = false := by rw [hv]; decide +kernel
  simp only [JEnv.baseAttrs, lacks ht hn hl (hs _ (List.mem_of_getElem? (i := 0) rfl)) (v3d E _), hver,
    lacks ht hn hl (hs _ (List.mem_of_getElem? (i := 1) rfl)) (u64 E _), lacks ht hn hl (hs _ (List.mem_of_getElem? (i := 2) rfl)) (bool _),
    lacks ht hn hl (hs _ (List.mem_of_getElem? (i := 3) rfl)) (bool _), Res.bind_ok, Bool.false_eq_true, if_false, Res.pure_eq]
  rfl


variable (hF : E.toJArith.Exact) (hv : E.version = FileHeader.current.version)
include hF hv


theorem semantic_only {s : SemanticAttrs} (hty : s.Typed) (h : s.Printable E.toJArith) (ht : textFields fs = .ok fs')
    (hn : (fs.map Prod.fst).Nodup) (hl : (Json.obj fs').Lacks keep j') (hs : ∀ e ∈ E.toJArith.semanticAttrs s, e ∈ fs) : E.semanticAttrs j' = .ok ((s.jsonKept E.toJArith).only keep) := by
  have hver : E.version.le ⟨1, 0, 2⟩ = false := by rw [hv]; decide +kernel
  simp only [JEnv.semanticAttrs, JEnv.semanticColor, lacks ht hn hl (hs _ (List.mem_of_getElem? (i := 0) rfl)) (str h.1), hver,
    lacks ht hn hl (hs _ (List.mem_of_getElem? (i := 1) rfl)) (color E _), lacks ht hn hl (hs _ (List.mem_of_getElem? (i := 2) rfl)) (bbox E hF hv h.2.1),
    lacks ht hn hl (hs _ (List.mem_of_getElem? (i := 3) rfl)) (u32 E _).jrt, lacks ht hn hl (hs _ (List.mem_of_getElem? (i := 4) rfl)) (feature E hty h),
    Res.bind_ok, Bool.false_eq_true, if_false, Res.pure_eq]
  rfl
omit hF hv


theorem object_only {o : ObjectAttrs} (h : o.worldRObject.Finite) (ht : textFields fs = .ok fs')
    (hn : (fs.map Prod.fst).Nodup) (hl : (Json.obj fs').Lacks keep j') (hs : ∀ e ∈ JArith.objectAttrs o, e ∈ fs) : E.objectAttrs j' = .ok (o.only keep) := by
  simp only [JEnv.objectAttrs, lacks ht hn hl (hs _ (List.mem_of_getElem? (i := 0) rfl)) (vec (fun b _ => u64 E b)),
    lacks ht hn hl (hs _ (List.mem_of_getElem? (i := 1) rfl)) (bool _), lacks ht hn hl (hs _ (List.mem_of_getElem? (i := 2) rfl)) (quat E h),
    Res.bind_ok, Res.pure_eq]
  rfl

section
variable {p : PlaceAttrs} (h1 : F64.finite p.distance = true) (h3 : p.orientation.Finite)
  (h4 : ∀ x ∈ p.voxblox, x.Finite)
include h1 h3 h4

theorem place_only (ht : textFields fs = .ok fs') (hn : (fs.map Prod.fst).Nodup) (hl : (Json.obj fs').Lacks keep j') (hs : ∀ e ∈ JArith.placeAttrs p, e ∈ fs) :
    E.placeAttrs j' = .ok (p.printed.only keep) := by
  simp only [JEnv.placeAttrs, lacks ht hn hl (hs _ (List.mem_of_getElem? (i := 0) rfl)) (f64 E h1).jrt,
    lacks ht hn hl (hs _ (List.mem_of_getElem? (i := 1) rfl)) (u32 E _).jrt,
    lacks ht hn hl (hs _ (List.mem_of_getElem? (i := 2) rfl)) (vec (fun b hb => nvi E (h4 b hb))),
    lacks ht hn hl (hs _ (List.mem_of_getElem? (i := 3) rfl)) (vec (fun b _ => u64 E b)),
    lacks ht hn hl (hs _ (List.mem_of_getElem? (i := 4) rfl)) (vec (fun b _ => u8 E b)),
    lacks ht hn hl (hs _ (List.mem_of_getElem? (i := 5) rfl)) (vec (fun b _ => u64 E b)),
    lacks ht hn hl (hs _ (List.mem_of_getElem? (i := 6) rfl)) (bool _),
    lacks ht hn hl (hs _ (List.mem_of_getElem? (i := 7) rfl)) (bool _),
    lacks ht hn hl (hs _ (List.mem_of_getElem? (i := 8) rfl)) (v3d E _),
    lacks ht hn hl (hs _ (List.mem_of_getElem? (i := 9) rfl)) (quat E h3),
    lacks ht hn hl (hs _ (List.mem_of_getElem? (i := 10) rfl)) (bool _),
    lacks ht hn hl (hs _ (List.mem_of_getElem? (i := 11) rfl)) (u64 E _), Res.bind_ok, Res.pure_eq]
  rfl
end

section
variable {p : Place2dAttrs} (hty : p.Typed) (h4 : ∀ x ∈ p.voxblox, x.Finite)
include hty h4

theorem place2d_only (ht : textFields fs = .ok fs') (hn : (fs.map Prod.fst).Nodup) (hl : (Json.obj fs').Lacks keep j') (hs : ∀ e ∈ JArith.place2dAttrs p, e ∈ fs) :
    E.place2dAttrs j' = .ok (Place2dAttrs.only E.fresh keep { p.printed with pclMin := 0, pclMax := 0, needFinishMerge := false }) := by
  simp only [JEnv.place2dAttrs, lacks ht hn hl (hs _ (List.mem_of_getElem? (i := 0) rfl)) (vec' (φ := V3d.printed) (fun b _ => v3d E b)),
    lacks ht hn hl (hs _ (List.mem_of_getElem? (i := 1) rfl)) (v3d E _),
    lacks ht hn hl (hs _ (List.mem_of_getElem? (i := 2) rfl)) (matrixFixed E hty.1 (by decide) (fun b _ => f64c E b)),
    lacks ht hn hl (hs _ (List.mem_of_getElem? (i := 3) rfl)) (matrixFixed E hty.2 (by decide) (fun b _ => f64c E b)),
    lacks ht hn hl (hs _ (List.mem_of_getElem? (i := 4) rfl)) (vec (fun b _ => u64 E b)),
    lacks ht hn hl (hs _ (List.mem_of_getElem? (i := 5) rfl)) (vec (fun b hb => nvi E (h4 b hb))),
    lacks ht hn hl (hs _ (List.mem_of_getElem? (i := 6) rfl)) (vec (fun b _ => u64 E b)),
    lacks ht hn hl (hs _ (List.mem_of_getElem? (i := 7) rfl)) (vec (fun b _ => u8 E b)),
    lacks ht hn hl (hs _ (List.mem_of_getElem? (i := 8) rfl)) (vec (fun b _ => u64 E b)),
    lacks ht hn hl (hs _ (List.mem_of_getElem? (i := 9) rfl)) (bool _),
    lacks ht hn hl (hs _ (List.mem_of_getElem? (i := 10) rfl)) (bool _), Res.bind_ok, Res.pure_eq]
  rfl
end

section
variable {a : AgentAttrs} (hty : a.Typed) (h1 : a.worldRBody.Finite) (h2 : a.dbowIds.rows < 2 ^ 31) (h3 : a.dbowValues.rows < 2 ^ 31)
include hty h1 h2 h3

theorem agent_only (ht : textFields fs = .ok fs') (hn : (fs.map Prod.fst).Nodup) (hl : (Json.obj fs').Lacks keep j') (hs : ∀ e ∈ E.toJArith.agentAttrs a, e ∈ fs) :
    E.agentAttrs j' = .ok (a.printed.only E.fresh keep) := by
  simp only [JEnv.agentAttrs, lacks ht hn hl (hs _ (List.mem_of_getElem? (i := 0) rfl)) (quat E h1),
    lacks ht hn hl (hs _ (List.mem_of_getElem? (i := 1) rfl)) (u64 E _),
    lacks ht hn hl (hs _ (List.mem_of_getElem? (i := 2) rfl)) (agent_parts E hty h1 h2 h3).1,
    lacks ht hn hl (hs _ (List.mem_of_getElem? (i := 3) rfl)) (agent_parts E hty h1 h2 h3).2, Res.bind_ok, Res.pure_eq]
  rfl
end

section
variable {k : KhronosAttrs} (h4 : ∀ e ∈ k.details.toList, Str.IsText e.1)
include h4

theorem khronos_only (ht : textFields fs = .ok fs') (hn : (fs.map Prod.fst).Nodup) (hl : (Json.obj fs').Lacks keep j') (hs : ∀ e ∈ E.toJArith.khronosAttrs k, e ∈ fs) :
    E.khronosAttrs j' = .ok (k.printed.only keep) := by
  simp only [JEnv.khronosAttrs, lacks ht hn hl (hs _ (List.mem_of_getElem? (i := 0) rfl)) (vec (fun b _ => u64 E b)),
    lacks ht hn hl (hs _ (List.mem_of_getElem? (i := 1) rfl)) (vec (fun b _ => u64 E b)),
    lacks ht hn hl (hs _ (List.mem_of_getElem? (i := 2) rfl)) (mesh E _),
    lacks ht hn hl (hs _ (List.mem_of_getElem? (i := 3) rfl)) (vec' (φ := V3f.printed) (fun b _ => v3f E b)),
    lacks ht hn hl (hs _ (List.mem_of_getElem? (i := 4) rfl)) (vec (fun b _ => u64 E b)),
    lacks ht hn hl (hs _ (List.mem_of_getElem? (i := 5) rfl)) (vec' (φ := List.map V3f.printed) (fun _ _ => vec' (fun b _ => v3f E b))),
    lacks ht hn hl (hs _ (List.mem_of_getElem? (i := 6) rfl)) (map (fun e he => ⟨h4 e he, vec (fun b _ => u64 E b)⟩)), Res.bind_ok, Res.pure_eq]
  rfl
end

variable (hF : E.toJArith.Exact) (hv : E.version = FileHeader.current.version)
include hF hv

theorem fields_only {a : NodeAttrs} (hty : a.Typed) (h : a.Printable E.toJArith) :
    ∀ {name : Json} {fs' : List (Str × Json)}, textFields ((Str.lit "type", name) :: E.toJArith.fields a) = .ok fs' →
      ∀ {keep : Str → Bool} {j' : Json}, (Json.obj fs').Lacks keep j' → E.fields j' a.cls = .ok ((a.jsonKept E.toJArith).only E.fresh keep) := by
  cases a with
  | base b =>
    intro name fs' ht keep j' hl
    have hn : (((Str.lit "type", name) :: E.toJArith.fields (.base b)).map Prod.fst).Nodup := by
      simp only [JArith.fields, JArith.baseAttrs, List.map]; decide +kernel
    simp only [JEnv.fields, NodeAttrs.cls, base_only E hv ht hn hl (fun e he => List.mem_cons_of_mem _ he), Res.bind_ok, Res.pure_eq, NodeAttrs.jsonKept]
    rfl
  | semantic b s =>
    intro name fs' ht keep j' hl
    have hn : (((Str.lit "type", name) :: E.toJArith.fields (.semantic b s)).map Prod.fst).Nodup := by
      simp only [JArith.fields, JArith.baseAttrs, JArith.semanticAttrs, List.map, List.cons_append, List.nil_append]; decide +kernel
    simp only [JEnv.fields, NodeAttrs.cls, base_only E hv ht hn hl (fun e he => List.mem_cons_of_mem _ (List.mem_append_left _ he)),
      semantic_only E hF hv hty h ht hn hl (fun e he => List.mem_cons_of_mem _ (List.mem_append_right _ he)), Res.bind_ok, Res.pure_eq, NodeAttrs.jsonKept]
    rfl
  | object b s o =>
    intro name fs' ht keep j' hl
    have hn : (((Str.lit "type", name) :: E.toJArith.fields (.object b s o)).map Prod.fst).Nodup := by
      simp only [JArith.fields, JArith.baseAttrs, JArith.semanticAttrs, JArith.objectAttrs, List.map, List.cons_append, List.nil_append]; decide +kernel
    simp only [JEnv.fields, NodeAttrs.cls,
      base_only E hv ht hn hl (fun e he => List.mem_cons_of_mem _ (List.mem_append_left _ (List.mem_append_left _ he))),
      semantic_only E hF hv hty h.1 ht hn hl (fun e he => List.mem_cons_of_mem _ (List.mem_append_left _ (List.mem_append_right _ he))),
      object_only E h.2 ht hn hl (fun e he => List.mem_cons_of_mem _ (List.mem_append_right _ he)), Res.bind_ok, Res.pure_eq, NodeAttrs.jsonKept]
    rfl
  | room b s p =>
    have rp : JRT (JArith.map Json.num p) (JEnv.map E.f64) p := map (fun e he => ⟨(h.2 e he).1, (f64 E (h.2 e he).2).jrt⟩)
    intro name fs' ht keep j' hl
    have hn : (((Str.lit "type", name) :: E.toJArith.fields (.room b s p)).map Prod.fst).Nodup := by
      simp only [JArith.fields, JArith.baseAttrs, JArith.semanticAttrs, List.map, List.cons_append, List.nil_append]; decide +kernel
    simp only [JEnv.fields, NodeAttrs.cls,
      base_only E hv ht hn hl (fun e he => List.mem_cons_of_mem _ (List.mem_append_left _ (List.mem_append_left _ he))),
      semantic_only E hF hv hty h.1 ht hn hl (fun e he => List.mem_cons_of_mem _ (List.mem_append_left _ (List.mem_append_right _ he))),
      JRT.lacks ht hn hl (List.mem_cons_of_mem _ (List.mem_append_right _ (List.mem_cons_self))) rp, Res.bind_ok, Res.pure_eq, NodeAttrs.jsonKept]
    rfl
  | place b s p =>
    obtain ⟨h0, h1, h3, h4⟩ := h
    intro name fs' ht keep j' hl
    have hn : (((Str.lit "type", name) :: E.toJArith.fields (.place b s p)).map Prod.fst).Nodup := by
      simp only [JArith.fields, JArith.baseAttrs, JArith.semanticAttrs, JArith.placeAttrs, List.map, List.cons_append, List.nil_append]; decide +kernel
    simp only [JEnv.fields, NodeAttrs.cls,
      base_only E hv ht hn hl (fun e he => List.mem_cons_of_mem _ (List.mem_append_left _ (List.mem_append_left _ he))),
      semantic_only E hF hv hty h0 ht hn hl (fun e he => List.mem_cons_of_mem _ (List.mem_append_left _ (List.mem_append_right _ he))),
      place_only E h1 h3 h4 ht hn hl (fun e he => List.mem_cons_of_mem _ (List.mem_append_right _ he)), Res.bind_ok, Res.pure_eq, NodeAttrs.jsonKept]
    rfl
  | place2d b s p =>
    obtain ⟨h0, h4⟩ := h
    intro name fs' ht keep j' hl
    have hn : (((Str.lit "type", name) :: E.toJArith.fields (.place2d b s p)).map Prod.fst).Nodup := by
      simp only [JArith.fields, JArith.baseAttrs, JArith.semanticAttrs, JArith.place2dAttrs, List.map, List.cons_append, List.nil_append]; decide +kernel
    simp only [JEnv.fields, NodeAttrs.cls,
      base_only E hv ht hn hl (fun e he => List.mem_cons_of_mem _ (List.mem_append_left _ (List.mem_append_left _ he))),
      semantic_only E hF hv hty.1 h0 ht hn hl (fun e he => List.mem_cons_of_mem _ (List.mem_append_left _ (List.mem_append_right _ he))),
      place2d_only E hty.2 h4 ht hn hl (fun e he => List.mem_cons_of_mem _ (List.mem_append_right _ he)), Res.bind_ok, Res.pure_eq, NodeAttrs.jsonKept]
    rfl
  | agent b a =>
    obtain ⟨h1, h2, h3⟩ := h
    intro name fs' ht keep j' hl
    have hn : (((Str.lit "type", name) :: E.toJArith.fields (.agent b a)).map Prod.fst).Nodup := by
      simp only [JArith.fields, JArith.baseAttrs, JArith.agentAttrs, List.map, List.cons_append, List.nil_append]; decide +kernel
    simp only [JEnv.fields, NodeAttrs.cls,
      base_only E hv ht hn hl (fun e he => List.mem_cons_of_mem _ (List.mem_append_left _ he)),
      agent_only E hty h1 h2 h3 ht hn hl (fun e he => List.mem_cons_of_mem _ (List.mem_append_right _ he)), Res.bind_ok, Res.pure_eq, NodeAttrs.jsonKept]
    rfl
  | khronos b s o k =>
    obtain ⟨h0, h4⟩ := h
    intro name fs' ht keep j' hl
    have hn : (((Str.lit "type", name) :: E.toJArith.fields (.khronos b s o k)).map Prod.fst).Nodup := by
      simp only [JArith.fields, JArith.baseAttrs, JArith.semanticAttrs, JArith.khronosAttrs, List.map, List.cons_append, List.nil_append]; decide +kernel
    simp only [JEnv.fields, NodeAttrs.cls,
      base_only E hv ht hn hl (fun e he => List.mem_cons_of_mem _ (List.mem_append_left _ (List.mem_append_left _ he))),
      semantic_only E hF hv hty h0 ht hn hl (fun e he => List.mem_cons_of_mem _ (List.mem_append_left _ (List.mem_append_right _ he))),
      khronos_only E h4 ht hn hl (fun e he => List.mem_cons_of_mem _ (List.mem_append_right _ he)), Res.bind_ok, Res.pure_eq, NodeAttrs.jsonKept]
    rfl


omit hF hv
end JRT
end Verif
