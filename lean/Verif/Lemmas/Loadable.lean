import Verif.Spec.Loadable
import Verif.Lemmas.OnlyText2
/-! # What a reader accepts has finite scalars -/

namespace Verif
open Json

/-- Printed, the tree `j` can be read. -/
def Reads {α : Type} (j : Json) (r : Json → Res α) : Prop := ∃ v a, j.text = .ok v ∧ r v = .ok a

theorem foldRes_each {σ α : Type} {f : σ → α → Res σ} {l : List α} {s t : σ} (h : foldRes f s l = .ok t) : ∀ a ∈ l, ∃ s t, f s a = .ok t := by
  induction l generalizing s with
  | nil => intro a ha; cases ha
  | cons b l ih =>
    rw [foldRes_cons] at h
    obtain ⟨s', h1, h2⟩ := bind_eq_ok h
    intro a ha
    rcases List.mem_cons.1 ha with rfl | ha
    · exact ⟨_, _, h1⟩
    · exact ih h2 a ha
theorem allRes_each {α β : Type} {f : α → Res β} {l : List α} {l' : List β} (h : allRes f l = .ok l') : ∀ a ∈ l, ∃ b ∈ l', f a = .ok b := by
  induction l generalizing l' with
  | nil => intro a ha; cases ha
  | cons b l ih =>
    unfold allRes at h
    obtain ⟨x, h1, h2⟩ := bind_eq_ok h
    obtain ⟨l1, h3, h4⟩ := bind_eq_ok h2
    cases h4
    intro a ha
    rcases List.mem_cons.1 ha with rfl | ha
    · exact ⟨_, List.mem_cons_self, h1⟩
    · obtain ⟨y, h5, h6⟩ := ih h3 a ha
      exact ⟨y, List.mem_cons_of_mem _ h5, h6⟩
theorem textAll_eq : ∀ l : List Json, textAll l = allRes Json.text l
  | [] => rfl
  | j :: l => by
    rw [textAll, allRes]
    simp only [textAll_eq l]
theorem textFields_mem {fs fs' : List (Str × Json)} (h : textFields fs = .ok fs') : ∀ e ∈ fs, ∃ v, e.2.text = .ok v ∧ (e.1, v) ∈ fs' := by
  induction fs generalizing fs' with
  | nil => intro a ha; cases ha
  | cons e fs ih =>
    obtain ⟨k, j⟩ := e
    unfold textFields at h
    split at h
    · obtain ⟨v, h1, h2⟩ := bind_eq_ok h
      obtain ⟨fs1, h3, h4⟩ := bind_eq_ok h2
      cases h4
      intro a ha
      rcases List.mem_cons.1 ha with rfl | ha
      · exact ⟨v, h1, List.mem_cons_self⟩
      · obtain ⟨y, h5, h6⟩ := ih h3 a ha
        exact ⟨y, h5, List.mem_cons_of_mem _ h6⟩
    · cases h
theorem text_obj_inv {fs : List (Str × Json)} {v : Json} (h : (Json.obj fs).text = .ok v) : ∃ fs', v = .obj fs' ∧ textFields fs = .ok fs' := by
  rw [Json.text] at h
  obtain ⟨fs', h1, h2⟩ := bind_eq_ok h
  cases h2
  exact ⟨fs', rfl, h1⟩
theorem text_arr_inv {l : List Json} {v : Json} (h : (Json.arr l).text = .ok v) : ∃ l', v = .arr l' ∧ textAll l = .ok l' := by
  rw [Json.text] at h
  obtain ⟨fs', h1, h2⟩ := bind_eq_ok h
  cases h2
  exact ⟨fs', rfl, h1⟩

namespace Reads
variable {α : Type} {j : Json} {r : Json → Res α} {a : α} {fs fs' : List (Str × Json)}

theorem of_at (ht : textFields fs = .ok fs') (hn : (fs.map Prod.fst).Nodup) {k : Str} (h : ((Json.obj fs').at' k >>= r) = .ok a) (hm : (k, j) ∈ fs) :
    Reads j r := by
  obtain ⟨v, h1, h2⟩ := JRT.get ht hn hm
  simp only [Json.at', h2, Res.bind_ok] at h
  exact ⟨v, a, h1, h⟩
theorem of_field (ht : textFields fs = .ok fs') (hn : (fs.map Prod.fst).Nodup) {k : Str} {d : α} (h : JEnv.field (Json.obj fs') k d r = .ok a)
    (hm : (k, j) ∈ fs) : Reads j r := by
  obtain ⟨v, h1, h2⟩ := JRT.get ht hn hm
  simp only [JEnv.field, h2] at h
  exact ⟨v, a, h1, h⟩

variable {E : JEnv}
theorem f64 {d : F64} (h : Reads (.num d) E.f64) : F64.finite d = true := by
  obtain ⟨v, a, h1, h2⟩ := h
  rw [Json.text] at h1
  cases h1
  by_cases hd : F64.finite d = true
  · exact hd
  · rw [if_neg hd] at h2
    cases h2
theorem f32 {x : F32} (h : Reads (E.toJArith.float x) E.f32) : F32.finite x = true := by
  obtain ⟨v, a, h1, h2⟩ := h
  by_cases hx : F32.finite x = true
  · exact hx
  · have hd : ¬ F64.finite (E.widen x) = true := ieee_special x hx
    rw [JArith.float, Json.text, if_neg hd] at h1
    cases h1
    cases h2
theorem quat {q : Quat} (h : Reads (JArith.quat q) E.quat) : q.Finite := by
  obtain ⟨v, a, h1, h2⟩ := h
  obtain ⟨fs', rfl, ht⟩ := text_obj_inv h1
  have hn : ([(Str.lit "w", Json.num q.w), (Str.lit "x", .num q.x), (Str.lit "y", .num q.y), (Str.lit "z", .num q.z)].map Prod.fst).Nodup := by
    simp only [List.map]; decide +kernel
  unfold JEnv.quat at h2
  obtain ⟨_, g1, h2⟩ := bind_eq_ok h2
  obtain ⟨_, g2, h2⟩ := bind_eq_ok h2
  obtain ⟨_, g3, h2⟩ := bind_eq_ok h2
  obtain ⟨_, g4, h2⟩ := bind_eq_ok h2
  exact ⟨f64 (of_at ht hn g1 (List.mem_of_getElem? (i := 0) rfl)), f64 (of_at ht hn g2 (List.mem_of_getElem? (i := 1) rfl)),
    f64 (of_at ht hn g3 (List.mem_of_getElem? (i := 2) rfl)), f64 (of_at ht hn g4 (List.mem_of_getElem? (i := 3) rfl))⟩
theorem quatf {q : F32 × F32 × F32 × F32} (h : Reads (E.toJArith.quatf q) E.quatf) :
    F32.finite q.1 = true ∧ F32.finite q.2.1 = true ∧ F32.finite q.2.2.1 = true ∧ F32.finite q.2.2.2 = true := by
  obtain ⟨v, a, h1, h2⟩ := h
  obtain ⟨fs', rfl, ht⟩ := text_obj_inv h1
  have hn : ([(Str.lit "w", E.toJArith.float q.1), (Str.lit "x", E.toJArith.float q.2.1), (Str.lit "y", E.toJArith.float q.2.2.1),
      (Str.lit "z", E.toJArith.float q.2.2.2)].map Prod.fst).Nodup := by
    simp only [List.map]; decide +kernel
  unfold JEnv.quatf at h2
  obtain ⟨_, g1, h2⟩ := bind_eq_ok h2
  obtain ⟨_, g2, h2⟩ := bind_eq_ok h2
  obtain ⟨_, g3, h2⟩ := bind_eq_ok h2
  obtain ⟨_, g4, h2⟩ := bind_eq_ok h2
  exact ⟨f32 (of_at ht hn g1 (List.mem_of_getElem? (i := 0) rfl)), f32 (of_at ht hn g2 (List.mem_of_getElem? (i := 1) rfl)),
    f32 (of_at ht hn g3 (List.mem_of_getElem? (i := 2) rfl)), f32 (of_at ht hn g4 (List.mem_of_getElem? (i := 3) rfl))⟩
theorem vec {β : Type} {w : β → Json} {r : Json → Res β} {l : List β} (h : Reads (JArith.vec w l) (JEnv.vec r)) : ∀ b ∈ l, Reads (w b) r := by
  obtain ⟨v, a, h1, h2⟩ := h
  obtain ⟨l', rfl, ht⟩ := text_arr_inv h1
  intro b hb
  rw [textAll_eq] at ht
  obtain ⟨v, h3, h4⟩ := allRes_each ht (w b) (List.mem_map.2 ⟨b, hb, rfl⟩)
  obtain ⟨c, _, h5⟩ := allRes_each (show allRes r l' = .ok a from h2) v h3
  exact ⟨v, c, h4, h5⟩
theorem map {β : Type} {w : β → Json} {r : Json → Res β} {m : OMap Str β} (h : Reads (JArith.map w m) (JEnv.map r)) :
    ∀ e ∈ m.toList, Reads (w e.2) r := by
  obtain ⟨v, a, h1, h2⟩ := h
  obtain ⟨fs', rfl, ht⟩ := text_obj_inv h1
  intro e he
  obtain ⟨v, h3, h4⟩ := textFields_mem ht (e.1, w e.2) (List.mem_map.2 ⟨e, he, rfl⟩)
  obtain ⟨s, t, h5⟩ := foldRes_each h2 _ h4
  obtain ⟨c, h6, _⟩ := bind_eq_ok h5
  exact ⟨v, c, h3, h6⟩
theorem bbox {b : BBox} (h : Reads (E.toJArith.bbox b) E.bbox) : b.Printable E.toJArith := by
  intro hb
  obtain ⟨v, a, h1, h2⟩ := h
  obtain ⟨fs', rfl, ht⟩ := text_obj_inv h1
  have hn : ([(Str.lit "type", JArith.bboxType b.type), (Str.lit "dimensions", E.toJArith.v3f b.dims), (Str.lit "world_P_center", E.toJArith.v3f b.center),
      (Str.lit "world_R_center", E.toJArith.quatf (E.toQuat b.rot))].map Prod.fst).Nodup := by
    simp only [List.map]; decide +kernel
  obtain ⟨t', t1, t2⟩ := JRT.get ht hn (List.mem_of_getElem? (i := 0) rfl)
  rw [JRT.bboxType_text] at t1
  cases t1
  have hb' : b.type = 1 ∨ b.type = 2 ∨ b.type = 3 := hb
  have hne : ¬ (b.type = 0) := by rcases hb' with h | h | h <;> rw [h] <;> decide
  unfold JEnv.bbox at h2
  have t3 : (Json.obj fs').at' (Str.lit "type") = .ok (JArith.bboxType b.type) := by simp only [Json.at', t2]
  simp only [t3, Res.bind_ok, JRT.bboxType_back, if_pos hb', if_neg hne] at h2
  obtain ⟨_, _, h2⟩ := bind_eq_ok h2
  obtain ⟨_, _, h2⟩ := bind_eq_ok h2
  obtain ⟨q, g3, h2⟩ := bind_eq_ok h2
  exact quatf (of_at ht hn g3 (List.mem_of_getElem? (i := 3) rfl))
theorem nvi {x : NearestVertexInfo} (h : Reads (JArith.nvi x) E.nvi) : x.Finite := by
  obtain ⟨v, a, h1, h2⟩ := h
  obtain ⟨fs', rfl, ht⟩ := text_obj_inv h1
  have hn : ([(Str.lit "block", Json.arr [JArith.int32 x.block.1, JArith.int32 x.block.2.1, JArith.int32 x.block.2.2]),
    (Str.lit "voxel_pos", .arr [.num x.voxelPos.1, .num x.voxelPos.2.1, .num x.voxelPos.2.2]),
    (Str.lit "vertex", .uint x.vertex),
    (Str.lit "label", JArith.label x.label)].map Prod.fst).Nodup := by
    simp only [List.map]; decide +kernel
  unfold JEnv.nvi at h2
  obtain ⟨_, _, h2⟩ := bind_eq_ok h2
  obtain ⟨_, _, h2⟩ := bind_eq_ok h2
  obtain ⟨_, _, h2⟩ := bind_eq_ok h2
  obtain ⟨_, _, h2⟩ := bind_eq_ok h2
  obtain ⟨p, g, h2⟩ := bind_eq_ok h2
  obtain ⟨_, g1, h2⟩ := bind_eq_ok h2
  obtain ⟨_, g2, h2⟩ := bind_eq_ok h2
  obtain ⟨_, g3, h2⟩ := bind_eq_ok h2
  obtain ⟨v, k1, k2⟩ := JRT.get ht hn (List.mem_of_getElem? (i := 1) rfl)
  simp only [Json.at', k2] at g
  cases g
  simp only [Json.text, textAll, Res.bind_ok, Res.pure_eq] at k1
  cases k1
  have e : ∀ {d : F64} {a : F64}, E.f64 (if F64.finite d = true then Json.num d else Json.null) = .ok a → F64.finite d = true := by
    intro d a h
    exact f64 (E := E) ⟨_, a, by rw [Json.text], h⟩
  refine ⟨e g1, e g2, e g3⟩
end Reads
end Verif
