import Verif.Spec.OldJson
import Verif.Lemmas.Json3
import Verif.Lemmas.Ieee
/-! # Old documents are read -/

namespace Verif
open Json
namespace JRT
variable (E : JEnv) {fs fs' : List (Str × Json)} {v : Supported}

theorem uses_lt4 (h : Supported.Uses E.version v) : E.version.lt ⟨1, 0, 4⟩ = !decide (v = .v104) := by
  rcases h with h | ⟨rfl, h | h⟩ <;> rw [h]
  · cases v <;> decide +kernel
  · decide +kernel
  · decide +kernel
theorem uses_le2 (h : Supported.Uses E.version v) : E.version.le ⟨1, 0, 2⟩ = decide (v = .v102) := by
  rcases h with h | ⟨rfl, h | h⟩ <;> rw [h]
  · cases v <;> decide +kernel
  · decide +kernel
  · decide +kernel
theorem uses_lt3 (h : Supported.Uses E.version v) : E.version.lt ⟨1, 0, 3⟩ = decide (v = .v102) := by
  rcases h with h | ⟨rfl, h | h⟩ <;> rw [h]
  · cases v <;> decide +kernel
  · decide +kernel
  · decide +kernel

theorem oldBase {b : BaseAttrs} (hv : Supported.Uses E.version v) (ht : textFields fs = .ok fs')
    (hn : (fs.map Prod.fst).Nodup) (hs : ∀ e ∈ v.jsonBase b, e ∈ fs) : E.baseAttrs (.obj fs') = .ok (v.readBase b.printed) := by
  have hver := uses_lt4 E hv
  have f0 : (Str.lit "position", JArith.v3d b.position) ∈ fs := hs _ (by cases v <;> exact List.mem_of_getElem? (i := 0) rfl)
  have f1 : (Str.lit "last_update_time_ns", Json.uint b.lastUpdate) ∈ fs := hs _ (by cases v <;> exact List.mem_of_getElem? (i := 1) rfl)
  have f2 : (Str.lit "is_active", Json.bool b.isActive) ∈ fs := hs _ (by cases v <;> exact List.mem_of_getElem? (i := 2) rfl)
  cases v with
  | v104 =>
    have f3 : (Str.lit "is_predicted", Json.bool b.isPredicted) ∈ fs := hs _ (List.mem_of_getElem? (i := 3) rfl)
    simp only [JEnv.baseAttrs, field ht hn f0 (v3d E _), field ht hn f1 (u64 E _), field ht hn f2 (bool _), field ht hn f3 (bool _), hver,
      Res.bind_ok, Bool.false_eq_true, if_false, Res.pure_eq]
    rfl
  | v102 | v103 =>
    simp only [JEnv.baseAttrs, field ht hn f0 (v3d E _), field ht hn f1 (u64 E _), field ht hn f2 (bool _), hver,
      Res.bind_ok, if_true, Res.pure_eq]
    rfl

theorem oldBox {b : BBox} {c : V3f × V3f} (hv : Supported.Uses E.version v) (h : b.Printable E.toJArith) :
    JRT (Supported.jsonBox E.toJArith v c b) E.bbox (Supported.readBox E.toJArith v c b) := by
  have hF := E.toJArith.exact
  have hver := uses_lt3 E hv
  have new : E.version.lt ⟨1, 0, 3⟩ = false → JRT (E.toJArith.bbox b) E.bbox (b.jsonKept E.toJArith) := by
    intro hver
    obtain ⟨j', h1, h2⟩ := bbox (E.under FileHeader.current.version) (b := b) hF rfl h
    refine ⟨j', h1, ?_⟩
    rw [← show (E.under FileHeader.current.version).bbox j' = .ok (b.jsonKept E.toJArith) from h2]
    unfold JEnv.bbox
    rw [hver, show (E.under FileHeader.current.version).version.lt ⟨1, 0, 3⟩ = false from (by decide +kernel : FileHeader.current.version.lt ⟨1, 0, 3⟩ = false)]
    rfl
  cases v with
  | v103 | v104 => exact new hver
  | v102 =>
    unfold Supported.jsonBox Supported.readBox
    refine obj (Tx.cons (by decide +kernel) ⟨_, bboxType_text _⟩ (.cons (by decide +kernel) (v3f_text _ _) (.cons (by decide +kernel) (v3f_text _ _)
      (.cons (by decide +kernel) (v3f_text _ _) (.cons (by decide +kernel) (quatf_text _ _) .nil))))) ?_
    intro fs' ht
    have hn : ([(Str.lit "type", JArith.bboxType b.type), (Str.lit "min", E.toJArith.v3f c.1), (Str.lit "max", E.toJArith.v3f c.2),
      (Str.lit "world_P_center", E.toJArith.v3f b.center), (Str.lit "world_R_center", E.toJArith.quatf (E.toQuat b.rot))].map Prod.fst).Nodup := by
      simp only [List.map]; decide +kernel
    obtain ⟨t', t1, t2⟩ := get ht hn (List.mem_of_getElem? (i := 0) rfl)
    rw [bboxType_text] at t1
    cases t1
    have t3 : (Json.obj fs').at' (Str.lit "type") = .ok (JArith.bboxType b.type) := by simp only [Json.at', t2]
    by_cases hb : b.Valid
    · obtain ⟨h3, h4, h5, h6⟩ := h hb
      have hb' : b.type = 1 ∨ b.type = 2 ∨ b.type = 3 := hb
      have hne : ¬ (b.type = 0) := by rcases hb' with h | h | h <;> rw [h] <;> decide
      have r0 := v3f E c.1
      have r1 := v3f E c.2
      have r2 := v3f E b.center
      have r3 := quatf E hF h3 h4 h5 h6
      simp only [JEnv.bbox, t3, Res.bind_ok, bboxType_back, if_pos hb', if_neg hne, hver, decide_true, if_true,
        r0.at' ht hn (List.mem_of_getElem? (i := 1) rfl), r1.at' ht hn (List.mem_of_getElem? (i := 2) rfl),
        r2.at' ht hn (List.mem_of_getElem? (i := 3) rfl), r3.at' ht hn (List.mem_of_getElem? (i := 4) rfl), if_pos hb, Res.pure_eq]
      rfl
    · have hb' : ¬ (b.type = 1 ∨ b.type = 2 ∨ b.type = 3) := hb
      simp only [JEnv.bbox, t3, Res.bind_ok, bboxType_back, if_neg hb', if_true, if_neg hb, Res.pure_eq]

theorem oldSemantic {s : SemanticAttrs} {c : V3f × V3f} (hv : Supported.Uses E.version v) (hty : s.Typed) (h : s.Printable E.toJArith)
    (ht : textFields fs = .ok fs') (hn : (fs.map Prod.fst).Nodup)
    (hs : ∀ e ∈ Supported.jsonSemantic E.toJArith v c s, e ∈ fs) :
    E.semanticAttrs (.obj fs') = .ok (Supported.readJson E.toJArith v c s) := by
  have hver := uses_le2 E hv
  have f0 := hs _ (List.mem_of_getElem? (i := 0) rfl)
  have f1 := hs _ (List.mem_of_getElem? (i := 1) rfl)
  have f2 := hs _ (List.mem_of_getElem? (i := 2) rfl)
  have f3 := hs _ (List.mem_of_getElem? (i := 3) rfl)
  have f4 := hs _ (List.mem_of_getElem? (i := 4) rfl)
  have hcol : E.semanticColor (.obj fs') = .ok (match v with | .v102 => { s.color with a := 255 } | _ => s.color) := by
    cases v with
    | v103 | v104 =>
      simp only [JEnv.semanticColor, hver, Bool.false_eq_true, if_false]
      exact field ht hn f1 (color E _) _
    | v102 =>
      obtain ⟨t', t1, t2⟩ := get ht hn f1
      cases t1
      simp only [JEnv.semanticColor, hver, if_true, t2]
      simp [JEnv.matrixFixed, JEnv.matrix, JEnv.mulInt, Json.size, allRes, JEnv.coeff, Json.isNull, JEnv.u8, JEnv.integral]
  simp only [JEnv.semanticAttrs, hcol, field ht hn f0 (str h.1), field ht hn f2 (oldBox E hv h.2.1),
    field ht hn f3 (u32 E _).jrt, field ht hn f4 (feature E hty h), Res.bind_ok, Res.pure_eq]
  cases v <;> rfl

theorem oldFields {a : NodeAttrs} {c : V3f × V3f} (hv : Supported.Uses E.version v) (hty : a.Typed) (h : a.Printable E.toJArith)
    (ht : textFields fs = .ok fs') (hn : (fs.map Prod.fst).Nodup)
    (hs : ∀ e ∈ Supported.jsonFields E.toJArith v c a, e ∈ fs) :
    E.fields (.obj fs') a.cls = .ok (Supported.readJsonAttrs E.toJArith v c a) := by
  have hF := E.toJArith.exact
  cases a with
  | base b =>
    have hb := oldBase E hv ht hn (fun e he => hs e he)
    simp only [JEnv.fields, NodeAttrs.cls, hb, Res.bind_ok, Res.pure_eq, Supported.readJsonAttrs]
  | agent b a =>
    obtain ⟨h1, h2, h3⟩ := h
    have hb := oldBase E hv ht hn (fun e he => hs e (List.mem_append_left _ he))
    have ha := agent_read E hty h1 h2 h3 ht hn (fun e he => hs e (List.mem_append_right _ he))
    simp only [JEnv.fields, NodeAttrs.cls, hb, ha, Res.bind_ok, Res.pure_eq, Supported.readJsonAttrs]
  | semantic b s =>
    have hb := oldBase E hv ht hn (fun e he => hs e (List.mem_append_left _ he))
    have hx := oldSemantic E hv hty h ht hn (fun e he => hs e (List.mem_append_right _ he))
    simp only [JEnv.fields, NodeAttrs.cls, hb, hx, Res.bind_ok, Res.pure_eq, Supported.readJsonAttrs]
  | object b s o =>
    have hb := oldBase E hv ht hn (fun e he => hs e (List.mem_append_left _ (List.mem_append_left _ he)))
    have hx := oldSemantic E hv hty h.1 ht hn (fun e he => hs e (List.mem_append_left _ (List.mem_append_right _ he)))
    have hy := object_read E h.2 ht hn (fun e he => hs e (List.mem_append_right _ he))
    simp only [JEnv.fields, NodeAttrs.cls, hb, hx, hy, Res.bind_ok, Res.pure_eq, Supported.readJsonAttrs]
  | room b s p =>
    have rp : JRT (JArith.map Json.num p) (JEnv.map E.f64) p := map (fun e he => ⟨(h.2 e he).1, (f64 E (h.2 e he).2).jrt⟩)
    have hb := oldBase E hv ht hn (fun e he => hs e (List.mem_append_left _ (List.mem_append_left _ he)))
    have hx := oldSemantic E hv hty h.1 ht hn (fun e he => hs e (List.mem_append_left _ (List.mem_append_right _ he)))
    have hy := JRT.field ht hn (hs _ (List.mem_append_right _ (List.mem_cons_self))) rp
    simp only [JEnv.fields, NodeAttrs.cls, hb, hx, hy, Res.bind_ok, Res.pure_eq, Supported.readJsonAttrs]
  | place b s p =>
    obtain ⟨h0, h1, h3, h4⟩ := h
    have hb := oldBase E hv ht hn (fun e he => hs e (List.mem_append_left _ (List.mem_append_left _ he)))
    have hx := oldSemantic E hv hty h0 ht hn (fun e he => hs e (List.mem_append_left _ (List.mem_append_right _ he)))
    have hy := place_read E h1 h3 h4 ht hn (fun e he => hs e (List.mem_append_right _ he))
    simp only [JEnv.fields, NodeAttrs.cls, hb, hx, hy, Res.bind_ok, Res.pure_eq, Supported.readJsonAttrs]
  | place2d b s p =>
    obtain ⟨h0, h4⟩ := h
    have hb := oldBase E hv ht hn (fun e he => hs e (List.mem_append_left _ (List.mem_append_left _ he)))
    have hx := oldSemantic E hv hty.1 h0 ht hn (fun e he => hs e (List.mem_append_left _ (List.mem_append_right _ he)))
    have hy := place2d_read E hty.2 h4 ht hn (fun e he => hs e (List.mem_append_right _ he))
    simp only [JEnv.fields, NodeAttrs.cls, hb, hx, hy, Res.bind_ok, Res.pure_eq, Supported.readJsonAttrs]
  | khronos b s o k =>
    obtain ⟨h0, h4⟩ := h
    have hb := oldBase E hv ht hn (fun e he => hs e (List.mem_append_left _ (List.mem_append_left _ he)))
    have hx := oldSemantic E hv hty h0 ht hn (fun e he => hs e (List.mem_append_left _ (List.mem_append_right _ he)))
    have hy := khronos_read E h4 ht hn (fun e he => hs e (List.mem_append_right _ he))
    simp only [JEnv.fields, NodeAttrs.cls, hb, hx, hy, Res.bind_ok, Res.pure_eq, Supported.readJsonAttrs]

end JRT
end Verif
