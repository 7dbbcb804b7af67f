import Verif.Lemmas.Json2
/-! # Round trips of attributes -/

namespace Verif
open Json
namespace JRT
variable (E : JEnv) {fs fs' : List (Str × Json)}

include E in
theorem base_tx (b : BaseAttrs) : Tx (JArith.baseAttrs b) :=
  .cons (by decide +kernel) (v3d E _).textual (.cons (by decide +kernel) (u64 E _).textual (.cons (by decide +kernel) (bool _).textual
    (.cons (by decide +kernel) (bool _).textual .nil)))
theorem base_read {b : BaseAttrs} (hv : E.version = FileHeader.current.version) (ht : textFields fs = .ok fs')
    (hn : (fs.map Prod.fst).Nodup) (hs : ∀ e ∈ JArith.baseAttrs b, e ∈ fs) : E.baseAttrs (.obj fs') = .ok b.printed := by
  have hver : E.version.lt ⟨1, 0, 4⟩ = false := by rw [hv]; decide +kernel
  simp only [JEnv.baseAttrs, field ht hn (hs _ (List.mem_of_getElem? (i := 0) rfl)) (v3d E _), hver,
    field ht hn (hs _ (List.mem_of_getElem? (i := 1) rfl)) (u64 E _), field ht hn (hs _ (List.mem_of_getElem? (i := 2) rfl)) (bool _),
    field ht hn (hs _ (List.mem_of_getElem? (i := 3) rfl)) (bool _), Res.bind_ok, Bool.false_eq_true, if_false, Res.pure_eq]
  rfl

theorem feature {s : SemanticAttrs} (ht : s.Typed) (h : s.Printable E.toJArith) :
    JRT (JArith.matrixDyn Json.num s.feature) (E.matrixDyn E.f64 F64.nan) s.feature.printed := by
  obtain ⟨_, r, c, h1⟩ := ht
  obtain ⟨_, _, h2, h3, h4⟩ := h
  have e1 := h1.1
  have e2 := h1.2.1
  rw [e1] at h2 h4
  rw [e2] at h3 h4
  exact matrixDyn E h1 h2 h3 h4 (fun b _ => f64c E b)

variable (hF : E.toJArith.Exact) (hv : E.version = FileHeader.current.version)
include hF hv

theorem semantic_tx {s : SemanticAttrs} (hty : s.Typed) (h : s.Printable E.toJArith) : Tx (E.toJArith.semanticAttrs s) :=
  .cons (by decide +kernel) (str h.1).textual (.cons (by decide +kernel) (color E _).textual (.cons (by decide +kernel) (bbox E hF hv h.2.1).textual
    (.cons (by decide +kernel) (u32 E _).jrt.textual (.cons (by decide +kernel) (feature E hty h).textual .nil))))
theorem semantic_read {s : SemanticAttrs} (hty : s.Typed) (h : s.Printable E.toJArith) (ht : textFields fs = .ok fs')
    (hn : (fs.map Prod.fst).Nodup) (hs : ∀ e ∈ E.toJArith.semanticAttrs s, e ∈ fs) : E.semanticAttrs (.obj fs') = .ok (s.jsonKept E.toJArith) := by
  have hver : E.version.le ⟨1, 0, 2⟩ = false := by rw [hv]; decide +kernel
  simp only [JEnv.semanticAttrs, JEnv.semanticColor, field ht hn (hs _ (List.mem_of_getElem? (i := 0) rfl)) (str h.1), hver,
    field ht hn (hs _ (List.mem_of_getElem? (i := 1) rfl)) (color E _), field ht hn (hs _ (List.mem_of_getElem? (i := 2) rfl)) (bbox E hF hv h.2.1),
    field ht hn (hs _ (List.mem_of_getElem? (i := 3) rfl)) (u32 E _).jrt, field ht hn (hs _ (List.mem_of_getElem? (i := 4) rfl)) (feature E hty h),
    Res.bind_ok, Bool.false_eq_true, if_false, Res.pure_eq]
  rfl
omit hF hv

include E in
theorem object_tx {o : ObjectAttrs} (h : o.worldRObject.Finite) : Tx (JArith.objectAttrs o) :=
  .cons (by decide +kernel) (vec (fun b _ => u64 E b)).textual (.cons (by decide +kernel) (bool _).textual (.cons (by decide +kernel) (quat E h).textual .nil))
theorem object_read {o : ObjectAttrs} (h : o.worldRObject.Finite) (ht : textFields fs = .ok fs')
    (hn : (fs.map Prod.fst).Nodup) (hs : ∀ e ∈ JArith.objectAttrs o, e ∈ fs) : E.objectAttrs (.obj fs') = .ok o := by
  simp only [JEnv.objectAttrs, field ht hn (hs _ (List.mem_of_getElem? (i := 0) rfl)) (vec (fun b _ => u64 E b)),
    field ht hn (hs _ (List.mem_of_getElem? (i := 1) rfl)) (bool _), field ht hn (hs _ (List.mem_of_getElem? (i := 2) rfl)) (quat E h),
    Res.bind_ok, Res.pure_eq]

section
variable {p : PlaceAttrs} (h1 : F64.finite p.distance = true) (h3 : p.orientation.Finite)
  (h4 : ∀ x ∈ p.voxblox, x.Finite)
include h1 h3 h4
include E in
theorem place_tx : Tx (JArith.placeAttrs p) :=
  .cons (by decide +kernel) (f64 E h1).jrt.textual <| .cons (by decide +kernel) (u32 E _).jrt.textual <|
  .cons (by decide +kernel) (vec (fun b hb => nvi E (h4 b hb))).textual <| .cons (by decide +kernel) (vec (fun b _ => u64 E b)).textual <|
  .cons (by decide +kernel) (vec (fun b _ => u8 E b)).textual <| .cons (by decide +kernel) (vec (fun b _ => u64 E b)).textual <|
  .cons (by decide +kernel) (bool _).textual <| .cons (by decide +kernel) (bool _).textual <| .cons (by decide +kernel) (v3d E _).textual <|
  .cons (by decide +kernel) (quat E h3).textual <| .cons (by decide +kernel) (bool _).textual <| .cons (by decide +kernel) (u64 E _).textual <| .nil
theorem place_read (ht : textFields fs = .ok fs') (hn : (fs.map Prod.fst).Nodup) (hs : ∀ e ∈ JArith.placeAttrs p, e ∈ fs) :
    E.placeAttrs (.obj fs') = .ok p.printed := by
  simp only [JEnv.placeAttrs, field ht hn (hs _ (List.mem_of_getElem? (i := 0) rfl)) (f64 E h1).jrt,
    field ht hn (hs _ (List.mem_of_getElem? (i := 1) rfl)) (u32 E _).jrt,
    field ht hn (hs _ (List.mem_of_getElem? (i := 2) rfl)) (vec (fun b hb => nvi E (h4 b hb))),
    field ht hn (hs _ (List.mem_of_getElem? (i := 3) rfl)) (vec (fun b _ => u64 E b)),
    field ht hn (hs _ (List.mem_of_getElem? (i := 4) rfl)) (vec (fun b _ => u8 E b)),
    field ht hn (hs _ (List.mem_of_getElem? (i := 5) rfl)) (vec (fun b _ => u64 E b)),
    field ht hn (hs _ (List.mem_of_getElem? (i := 6) rfl)) (bool _),
    field ht hn (hs _ (List.mem_of_getElem? (i := 7) rfl)) (bool _),
    field ht hn (hs _ (List.mem_of_getElem? (i := 8) rfl)) (v3d E _),
    field ht hn (hs _ (List.mem_of_getElem? (i := 9) rfl)) (quat E h3),
    field ht hn (hs _ (List.mem_of_getElem? (i := 10) rfl)) (bool _),
    field ht hn (hs _ (List.mem_of_getElem? (i := 11) rfl)) (u64 E _), Res.bind_ok, Res.pure_eq]
  rfl
end

section
variable {p : Place2dAttrs} (hty : p.Typed) (h4 : ∀ x ∈ p.voxblox, x.Finite)
include hty h4
include E in
theorem place2d_tx : Tx (JArith.place2dAttrs p) :=
  .cons (by decide +kernel) (vec' (φ := V3d.printed) (fun b _ => v3d E b)).textual <| .cons (by decide +kernel) (v3d E _).textual <|
  .cons (by decide +kernel) (matrixFixed E hty.1 (by decide) (fun b _ => f64c E b)).textual <|
  .cons (by decide +kernel) (matrixFixed E hty.2 (by decide) (fun b _ => f64c E b)).textual <|
  .cons (by decide +kernel) (vec (fun b _ => u64 E b)).textual <|
  .cons (by decide +kernel) (vec (fun b hb => nvi E (h4 b hb))).textual <| .cons (by decide +kernel) (vec (fun b _ => u64 E b)).textual <|
  .cons (by decide +kernel) (vec (fun b _ => u8 E b)).textual <| .cons (by decide +kernel) (vec (fun b _ => u64 E b)).textual <|
  .cons (by decide +kernel) (bool _).textual <| .cons (by decide +kernel) (bool _).textual <| .nil
theorem place2d_read (ht : textFields fs = .ok fs') (hn : (fs.map Prod.fst).Nodup) (hs : ∀ e ∈ JArith.place2dAttrs p, e ∈ fs) :
    E.place2dAttrs (.obj fs') = .ok { p.printed with pclMin := 0, pclMax := 0, needFinishMerge := false } := by
  simp only [JEnv.place2dAttrs, field ht hn (hs _ (List.mem_of_getElem? (i := 0) rfl)) (vec' (φ := V3d.printed) (fun b _ => v3d E b)),
    field ht hn (hs _ (List.mem_of_getElem? (i := 1) rfl)) (v3d E _),
    field ht hn (hs _ (List.mem_of_getElem? (i := 2) rfl)) (matrixFixed E hty.1 (by decide) (fun b _ => f64c E b)),
    field ht hn (hs _ (List.mem_of_getElem? (i := 3) rfl)) (matrixFixed E hty.2 (by decide) (fun b _ => f64c E b)),
    field ht hn (hs _ (List.mem_of_getElem? (i := 4) rfl)) (vec (fun b _ => u64 E b)),
    field ht hn (hs _ (List.mem_of_getElem? (i := 5) rfl)) (vec (fun b hb => nvi E (h4 b hb))),
    field ht hn (hs _ (List.mem_of_getElem? (i := 6) rfl)) (vec (fun b _ => u64 E b)),
    field ht hn (hs _ (List.mem_of_getElem? (i := 7) rfl)) (vec (fun b _ => u8 E b)),
    field ht hn (hs _ (List.mem_of_getElem? (i := 8) rfl)) (vec (fun b _ => u64 E b)),
    field ht hn (hs _ (List.mem_of_getElem? (i := 9) rfl)) (bool _),
    field ht hn (hs _ (List.mem_of_getElem? (i := 10) rfl)) (bool _), Res.bind_ok, Res.pure_eq]
  rfl
end

section
variable {a : AgentAttrs} (hty : a.Typed) (h1 : a.worldRBody.Finite) (h2 : a.dbowIds.rows < 2 ^ 31) (h3 : a.dbowValues.rows < 2 ^ 31)
include hty h1 h2 h3
theorem agent_parts : JRT (JArith.coeffs JArith.uint32 a.dbowIds) (E.column E.u32 0) a.dbowIds ∧
    JRT (JArith.coeffs E.toJArith.float a.dbowValues) (E.column E.f32 F32.nan) a.printed.dbowValues := by
  obtain ⟨⟨r, hr⟩, q, hq⟩ := hty
  have := column E (φ := id) hr (hr.1 ▸ h2) (fun b _ => u32c E b)
  rw [List.map_id] at this
  exact ⟨this, column E hq (hq.1 ▸ h3) (fun b _ => f32c E b)⟩
theorem agent_tx : Tx (E.toJArith.agentAttrs a) :=
  .cons (by decide +kernel) (quat E h1).textual <| .cons (by decide +kernel) (u64 E _).textual <|
  .cons (by decide +kernel) (agent_parts E hty h1 h2 h3).1.textual <| .cons (by decide +kernel) (agent_parts E hty h1 h2 h3).2.textual .nil
theorem agent_read (ht : textFields fs = .ok fs') (hn : (fs.map Prod.fst).Nodup) (hs : ∀ e ∈ E.toJArith.agentAttrs a, e ∈ fs) :
    E.agentAttrs (.obj fs') = .ok a.printed := by
  simp only [JEnv.agentAttrs, field ht hn (hs _ (List.mem_of_getElem? (i := 0) rfl)) (quat E h1),
    field ht hn (hs _ (List.mem_of_getElem? (i := 1) rfl)) (u64 E _),
    field ht hn (hs _ (List.mem_of_getElem? (i := 2) rfl)) (agent_parts E hty h1 h2 h3).1,
    field ht hn (hs _ (List.mem_of_getElem? (i := 3) rfl)) (agent_parts E hty h1 h2 h3).2, Res.bind_ok, Res.pure_eq]
  rfl
end

section
variable {k : KhronosAttrs} (h4 : ∀ e ∈ k.details.toList, Str.IsText e.1)
include h4
theorem khronos_tx : Tx (E.toJArith.khronosAttrs k) :=
  .cons (by decide +kernel) (vec (fun b _ => u64 E b)).textual <| .cons (by decide +kernel) (vec (fun b _ => u64 E b)).textual <|
  .cons (by decide +kernel) (mesh E _).textual <| .cons (by decide +kernel) (vec' (φ := V3f.printed) (fun b _ => v3f E b)).textual <|
  .cons (by decide +kernel) (vec (fun b _ => u64 E b)).textual <|
  .cons (by decide +kernel) (vec' (φ := List.map V3f.printed) (fun _ _ => vec' (fun b _ => v3f E b))).textual <|
  .cons (by decide +kernel) (map (fun e he => ⟨h4 e he, vec (fun b _ => u64 E b)⟩)).textual .nil
theorem khronos_read (ht : textFields fs = .ok fs') (hn : (fs.map Prod.fst).Nodup) (hs : ∀ e ∈ E.toJArith.khronosAttrs k, e ∈ fs) :
    E.khronosAttrs (.obj fs') = .ok k.printed := by
  simp only [JEnv.khronosAttrs, field ht hn (hs _ (List.mem_of_getElem? (i := 0) rfl)) (vec (fun b _ => u64 E b)),
    field ht hn (hs _ (List.mem_of_getElem? (i := 1) rfl)) (vec (fun b _ => u64 E b)),
    field ht hn (hs _ (List.mem_of_getElem? (i := 2) rfl)) (mesh E _),
    field ht hn (hs _ (List.mem_of_getElem? (i := 3) rfl)) (vec' (φ := V3f.printed) (fun b _ => v3f E b)),
    field ht hn (hs _ (List.mem_of_getElem? (i := 4) rfl)) (vec (fun b _ => u64 E b)),
    field ht hn (hs _ (List.mem_of_getElem? (i := 5) rfl)) (vec' (φ := List.map V3f.printed) (fun _ _ => vec' (fun b _ => v3f E b))),
    field ht hn (hs _ (List.mem_of_getElem? (i := 6) rfl)) (map (fun e he => ⟨h4 e he, vec (fun b _ => u64 E b)⟩)), Res.bind_ok, Res.pure_eq]
  rfl
end

end JRT
end Verif
