import Verif.Lemmas.Json
/-! # Round trips of members, meshes and headers -/

namespace Verif
open Json

/-- the fields can be printed -/
def Tx (fs : List (Str × Json)) : Prop := ∀ e ∈ fs, utf8 e.1 = true ∧ ∃ v', e.2.text = .ok v'
namespace Tx
theorem nil : Tx [] := by intro e he; cases he
theorem cons {k : Str} {j : Json} {fs : List (Str × Json)} (hk : utf8 k = true) (hj : ∃ v', j.text = .ok v') (h : Tx fs) : Tx ((k, j) :: fs) := by
  intro e he
  rcases List.mem_cons.1 he with rfl | he
  · exact ⟨hk, hj⟩
  · exact h e he
theorem append {fs gs : List (Str × Json)} (h : Tx fs) (h' : Tx gs) : Tx (fs ++ gs) := by
  intro e he
  rcases List.mem_append.1 he with he | he
  · exact h e he
  · exact h' e he
theorem text {fs : List (Str × Json)} (h : Tx fs) : ∃ v', (Json.obj fs).text = .ok v' := by
  obtain ⟨fs', h1⟩ := textFields_ok h
  exact ⟨.obj fs', by simp [Json.text, h1]⟩
end Tx

/-- numbers can always be printed -/
theorem num_text (d : F64) : ∃ v', (Json.num d).text = .ok v' := ⟨_, rfl⟩
theorem v3f_text (F : JArith) (v : V3f) : ∃ v', (F.v3f v).text = .ok v' := ⟨_, rfl⟩
theorem quatf_text (F : JArith) (q : F32 × F32 × F32 × F32) : ∃ v', (F.quatf q).text = .ok v' :=
  Tx.text (.cons (by decide +kernel) (num_text _) (.cons (by decide +kernel) (num_text _) (.cons (by decide +kernel) (num_text _)
    (.cons (by decide +kernel) (num_text _) .nil))))

namespace JRT
variable (E : JEnv)

theorem v3d (v : V3d) : JRT (JArith.v3d v) E.v3d v.printed := by
  obtain ⟨l', h1, h2, h3⟩ := all' (l := [v.x, v.y, v.z]) (fun b _ => f64c E b)
  refine ⟨.arr l', by simp only [JArith.v3d, text, List.map] at h1 ⊢; simp [h1], ?_⟩
  simp only [List.length_cons, List.length_nil] at h2
  simp [JEnv.v3d, JEnv.matrixFixed, JEnv.matrix, JEnv.mulInt, Json.size, h2, h3, V3d.printed]
theorem v3f (v : V3f) : JRT (E.toJArith.v3f v) E.v3f v.printed := by
  obtain ⟨l', h1, h2, h3⟩ := all' (l := [v.x, v.y, v.z]) (fun b _ => f32c E b)
  refine ⟨.arr l', by simp only [JArith.v3f, text, List.map] at h1 ⊢; simp [h1], ?_⟩
  simp only [List.length_cons, List.length_nil] at h2
  simp [JEnv.v3f, JEnv.matrixFixed, JEnv.matrix, JEnv.mulInt, Json.size, h2, h3, V3f.printed]

theorem quat {q : Quat} (h : q.Finite) : JRT (JArith.quat q) E.quat q := by
  obtain ⟨h1, h2, h3, h4⟩ := h
  have r1 := (f64 E h1).jrt
  have r2 := (f64 E h2).jrt
  have r3 := (f64 E h3).jrt
  have r4 := (f64 E h4).jrt
  refine obj (Tx.cons (by decide +kernel) r1.textual (.cons (by decide +kernel) r2.textual (.cons (by decide +kernel) r3.textual
    (.cons (by decide +kernel) r4.textual .nil)))) ?_
  intro fs' ht
  have hn : ([(Str.lit "w", Json.num q.w), (Str.lit "x", Json.num q.x), (Str.lit "y", Json.num q.y), (Str.lit "z", Json.num q.z)].map Prod.fst).Nodup := by
    simp only [List.map]; decide +kernel
  simp only [JEnv.quat, r1.at' ht hn (List.mem_of_getElem? (i := 0) rfl), r2.at' ht hn (List.mem_of_getElem? (i := 1) rfl),
    r3.at' ht hn (List.mem_of_getElem? (i := 2) rfl), r4.at' ht hn (List.mem_of_getElem? (i := 3) rfl), Res.bind_ok, Res.pure_eq]

theorem quatf {q : F32 × F32 × F32 × F32} (hF : E.toJArith.Exact) (h1 : F32.finite q.1 = true) (h2 : F32.finite q.2.1 = true)
    (h3 : F32.finite q.2.2.1 = true) (h4 : F32.finite q.2.2.2 = true) : JRT (E.toJArith.quatf q) E.quatf q := by
  have r1 := (f32 E hF h1).jrt
  have r2 := (f32 E hF h2).jrt
  have r3 := (f32 E hF h3).jrt
  have r4 := (f32 E hF h4).jrt
  refine obj (Tx.cons (by decide +kernel) r1.textual (.cons (by decide +kernel) r2.textual (.cons (by decide +kernel) r3.textual
    (.cons (by decide +kernel) r4.textual .nil)))) ?_
  intro fs' ht
  have hn : ([(Str.lit "w", E.toJArith.float q.1), (Str.lit "x", E.toJArith.float q.2.1), (Str.lit "y", E.toJArith.float q.2.2.1), (Str.lit "z", E.toJArith.float q.2.2.2)].map Prod.fst).Nodup := by
    simp only [List.map]; decide +kernel
  simp only [JEnv.quatf, r1.at' ht hn (List.mem_of_getElem? (i := 0) rfl), r2.at' ht hn (List.mem_of_getElem? (i := 1) rfl),
    r3.at' ht hn (List.mem_of_getElem? (i := 2) rfl), r4.at' ht hn (List.mem_of_getElem? (i := 3) rfl), Res.bind_ok, Res.pure_eq]

theorem bboxType_text (t : UInt32) : (JArith.bboxType t).text = .ok (JArith.bboxType t) := by
  unfold JArith.bboxType
  have : utf8 (if t = 1 then Str.lit "AABB" else if t = 3 then Str.lit "RAABB" else if t = 2 then Str.lit "OBB" else Str.lit "INVALID") = true := by
    split
    · decide +kernel
    · split
      · decide +kernel
      · split <;> decide +kernel
  simp only [text, this, if_true]
theorem bboxType_back (t : UInt32) : JEnv.bboxType (JArith.bboxType t) = if t = 1 ∨ t = 2 ∨ t = 3 then t else 0 := by
  unfold JArith.bboxType JEnv.bboxType
  by_cases h1 : t = 1
  · subst h1; decide +kernel
  by_cases h3 : t = 3
  · subst h3; decide +kernel
  by_cases h2 : t = 2
  · subst h2; decide +kernel
  simp only [h1, h2, h3, if_false, or_self]
  decide +kernel

theorem bbox {b : BBox} (hF : E.toJArith.Exact) (hv : E.version = FileHeader.current.version) (h : b.Printable E.toJArith) :
    JRT (E.toJArith.bbox b) E.bbox (b.jsonKept E.toJArith) := by
  refine obj (Tx.cons (by decide +kernel) ⟨_, bboxType_text _⟩ (.cons (by decide +kernel) (v3f_text _ _) (.cons (by decide +kernel) (v3f_text _ _)
    (.cons (by decide +kernel) (quatf_text _ _) .nil)))) ?_
  intro fs' ht
  have hn : ([(Str.lit "type", JArith.bboxType b.type), (Str.lit "dimensions", E.toJArith.v3f b.dims), (Str.lit "world_P_center", E.toJArith.v3f b.center),
    (Str.lit "world_R_center", E.toJArith.quatf (E.toQuat b.rot))].map Prod.fst).Nodup := by
    simp only [List.map]; decide +kernel
  obtain ⟨t', t1, t2⟩ := get ht hn (List.mem_of_getElem? (i := 0) rfl)
  rw [bboxType_text] at t1
  cases t1
  have t3 : (Json.obj fs').at' (Str.lit "type") = .ok (JArith.bboxType b.type) := by simp only [Json.at', t2]
  have hver : E.version.lt ⟨1, 0, 3⟩ = false := by rw [hv]; decide +kernel
  unfold BBox.jsonKept
  by_cases hb : b.Valid
  · obtain ⟨h3, h4, h5, h6⟩ := h hb
    have hb' : b.type = 1 ∨ b.type = 2 ∨ b.type = 3 := hb
    have hne : ¬ (b.type = 0) := by rcases hb' with h | h | h <;> rw [h] <;> decide
    have r1 := v3f E b.dims
    have r2 := v3f E b.center
    have r3 := quatf E hF h3 h4 h5 h6
    simp only [JEnv.bbox, t3, Res.bind_ok, bboxType_back, if_pos hb', if_neg hne, hver, Bool.false_eq_true, if_false,
      r1.at' ht hn (List.mem_of_getElem? (i := 1) rfl), r2.at' ht hn (List.mem_of_getElem? (i := 2) rfl),
      r3.at' ht hn (List.mem_of_getElem? (i := 3) rfl), if_pos hb, Res.pure_eq]
  · have hb' : ¬ (b.type = 1 ∨ b.type = 2 ∨ b.type = 3) := hb
    simp only [JEnv.bbox, t3, Res.bind_ok, bboxType_back, if_neg hb', if_true, if_neg hb, Res.pure_eq]

theorem nvi {x : NearestVertexInfo} (h : x.Finite) :
    JRT (JArith.nvi x) E.nvi x := by
  obtain ⟨h1, h2, h3⟩ := h
  obtain ⟨⟨b0, b1, b2⟩, ⟨p0, p1, p2⟩, v, l⟩ := x
  simp only at h1 h2 h3
  obtain ⟨c0, hc0, hc0'⟩ := i32 E b0
  obtain ⟨c1, hc1, hc1'⟩ := i32 E b1
  obtain ⟨c2, hc2, hc2'⟩ := i32 E b2
  have rb : (Json.arr [JArith.int32 b0, JArith.int32 b1, JArith.int32 b2]).text = .ok (.arr [c0, c1, c2]) := by
    simp [text, textAll, hc0, hc1, hc2]
  have rp : (Json.arr [.num p0, .num p1, .num p2]).text = .ok (.arr [.num p0, .num p1, .num p2]) := by
    simp [text, textAll, h1, h2, h3]
  have rv := u64 E v
  have rl : ∃ v', (JArith.label l).text = .ok v' := by cases l <;> exact ⟨_, rfl⟩
  refine obj (Tx.cons (by decide +kernel) ⟨_, rb⟩ (.cons (by decide +kernel) ⟨_, rp⟩ (.cons (by decide +kernel) rv.textual
    (.cons (by decide +kernel) rl .nil)))) ?_
  intro fs' ht
  have hn : ([(Str.lit "block", Json.arr [JArith.int32 b0, JArith.int32 b1, JArith.int32 b2]), (Str.lit "voxel_pos", Json.arr [.num p0, .num p1, .num p2]),
    (Str.lit "vertex", Json.uint v), (Str.lit "label", (JArith.label l))].map Prod.fst).Nodup := by
    simp only [List.map]; decide +kernel
  obtain ⟨t1, a1, a2⟩ := get ht hn (List.mem_of_getElem? (i := 0) rfl)
  rw [rb] at a1
  cases a1
  obtain ⟨t2, a3, a4⟩ := get ht hn (List.mem_of_getElem? (i := 1) rfl)
  rw [rp] at a3
  cases a3
  obtain ⟨t3, a5, a6⟩ := get ht hn (List.mem_of_getElem? (i := 3) rfl)
  have b1' : (Json.obj fs').at' (Str.lit "block") = .ok (.arr [c0, c1, c2]) := by simp only [Json.at', a2]
  have b2' : (Json.obj fs').at' (Str.lit "voxel_pos") = .ok (.arr [.num p0, .num p1, .num p2]) := by simp only [Json.at', a4]
  simp only [JEnv.nvi, b1', b2', Res.bind_ok, rv.at' ht hn (List.mem_of_getElem? (i := 2) rfl), a6]
  simp only [Json.nth, List.getElem?_cons_zero, List.getElem?_cons_succ, Res.bind_ok, hc0', hc1', hc2', JEnv.f64]
  cases l with
  | none => cases a5; rfl
  | some l =>
    obtain ⟨y, y1, y2, y3⟩ := u32 E l
    have a5 : (JArith.uint32 l).text = .ok t3 := a5
    rw [y1] at a5
    cases a5
    simp only [y2, Bool.false_eq_true, if_false, y3, Res.bind_ok, Res.pure_eq]

theorem color (c : Color) : JRT (JArith.color c) E.color c := by
  obtain ⟨r, g, b, a⟩ := c
  have r1 := u8 E r
  have r2 := u8 E g
  have r3 := u8 E b
  have r4 := u8 E a
  refine obj (Tx.cons (by decide +kernel) r1.textual (.cons (by decide +kernel) r2.textual (.cons (by decide +kernel) r3.textual
    (.cons (by decide +kernel) r4.textual .nil)))) ?_
  intro fs' ht
  have hn : ([(Str.lit "r", JArith.uint8 r), (Str.lit "g", JArith.uint8 g), (Str.lit "b", JArith.uint8 b), (Str.lit "a", JArith.uint8 a)].map Prod.fst).Nodup := by
    simp only [List.map]; decide +kernel
  obtain ⟨t3, a5, a6⟩ := get ht hn (List.mem_of_getElem? (i := 3) rfl)
  simp only [JEnv.color, r1.at' ht hn (List.mem_of_getElem? (i := 0) rfl), r2.at' ht hn (List.mem_of_getElem? (i := 1) rfl),
    r3.at' ht hn (List.mem_of_getElem? (i := 2) rfl), a6, r4.use a5, Res.bind_ok, Res.pure_eq]

theorem face (f : UInt64 × UInt64 × UInt64) : JRT (JArith.face f) E.face f := ⟨.arr [.uint f.1, .uint f.2.1, .uint f.2.2], rfl, rfl⟩

theorem header (h : FileHeader) (hp : h.project.IsText) : JRT (JArith.header h) E.header h := by
  obtain ⟨p, a, b, c⟩ := h
  have r1 := u8 E a
  have r2 := u8 E b
  have r3 := u8 E c
  have rp := str hp
  have tx : Tx [(Str.lit "major", JArith.uint8 a), (Str.lit "minor", JArith.uint8 b), (Str.lit "patch", JArith.uint8 c)] :=
    Tx.cons (by decide +kernel) r1.textual (.cons (by decide +kernel) r2.textual (.cons (by decide +kernel) r3.textual .nil))
  refine obj (Tx.cons (by decide +kernel) rp.textual (.cons (by decide +kernel) tx.text .nil)) ?_
  intro fs' ht
  have hn : ([(Str.lit "project_name", Json.str p), (Str.lit "version", Json.obj [(Str.lit "major", JArith.uint8 a), (Str.lit "minor", JArith.uint8 b), (Str.lit "patch", JArith.uint8 c)])].map Prod.fst).Nodup := by
    simp only [List.map]; decide +kernel
  have hn' : ([(Str.lit "major", JArith.uint8 a), (Str.lit "minor", JArith.uint8 b), (Str.lit "patch", JArith.uint8 c)].map Prod.fst).Nodup := by
    simp only [List.map]; decide +kernel
  obtain ⟨v', a1, a2⟩ := get ht hn (List.mem_of_getElem? (i := 1) rfl)
  obtain ⟨gs, b1⟩ := textFields_ok tx
  have : v' = .obj gs := by
    simp only [text, b1, Res.bind_ok, Res.pure_eq, Res.ok.injEq] at a1
    exact a1.symm
  subst this
  have b2 : (Json.obj fs').at' (Str.lit "version") = .ok (.obj gs) := by simp only [Json.at', a2]
  simp only [JEnv.header, rp.at' ht hn (List.mem_of_getElem? (i := 0) rfl), b2, Res.bind_ok, r1.at' b1 hn' (List.mem_of_getElem? (i := 0) rfl),
    r2.at' b1 hn' (List.mem_of_getElem? (i := 1) rfl), r3.at' b1 hn' (List.mem_of_getElem? (i := 2) rfl), Res.pure_eq]

/-! ### Meshes -/

/-- fields that may be left out -/
def opts (l : List (Str × Option Json)) : List (Str × Json) := l.flatMap (fun e => e.2.toList.map (fun j => (e.1, j)))

theorem mem_opts {l : List (Str × Option Json)} {k : Str} {j : Json} : (k, j) ∈ opts l ↔ (k, some j) ∈ l := by
  simp only [opts, List.mem_flatMap, List.mem_map, Option.mem_toList]
  constructor
  · rintro ⟨⟨a, o⟩, h1, j', h2, h3⟩
    cases h3
    simp only at h2
    subst h2
    exact h1
  · intro h
    exact ⟨_, h, j, rfl, rfl⟩

theorem opts_find {l : List (Str × Option Json)} (hn : (l.map Prod.fst).Nodup) {k : Str} {o : Option Json} (h : (k, o) ∈ l) :
    (opts l).find? (fun e => e.1 = k) = o.map (fun j => (k, j)) := by
  induction l with
  | nil => cases h
  | cons e l ih =>
    obtain ⟨a, q⟩ := e
    simp only [List.map_cons, List.nodup_cons] at hn
    show ((q.toList.map (fun j => (a, j))) ++ opts l).find? _ = _
    rw [List.find?_append]
    rcases List.mem_cons.1 h with h' | h'
    · cases h'
      cases o with
      | some j => simp
      | none =>
        simp only [Option.toList_none, List.map_nil, List.find?_nil, Option.none_or, Option.map_none]
        rw [List.find?_eq_none]
        rintro ⟨b, j⟩ hb hk
        have hk : b = k := by simpa using hk
        subst hk
        exact hn.1 (List.mem_map.2 ⟨_, mem_opts.1 hb, rfl⟩)
    · have hne : a ≠ k := by
        rintro rfl
        exact hn.1 (List.mem_map.2 ⟨_, h', rfl⟩)
      have : (q.toList.map (fun j => (a, j))).find? (fun e => e.1 = k) = none := by
        cases q <;> simp [hne]
      rw [this, Option.none_or]
      exact ih hn.2 h'

/-- a vector that is left out if it is empty -/
def some? {β : Type} (w : β → Json) : List β → Option Json
  | [] => none
  | l => some (JArith.vec w l)

theorem nonempty_eq {β : Type} (k : Str) (w : β → Json) (l : List β) : JArith.nonempty k w l = (some? w l).toList.map (fun j => (k, j)) := by
  cases l <;> rfl

theorem opt_field' {β : Type} {w : β → Json} {r : Json → Res β} {φ : β → β} {l : List (Str × Option Json)} {fs' : List (Str × Json)} {k : Str} {v : List β}
    (ht : textFields (opts l) = .ok fs') (hn : (l.map Prod.fst).Nodup) (hm : (k, some? w v) ∈ l) (h : ∀ b ∈ v, JRT (w b) r (φ b)) :
    JEnv.field (.obj fs') k [] (JEnv.vec r) = .ok (v.map φ) := by
  have := textFields_find ht k
  rw [opts_find hn hm] at this
  cases v with
  | nil =>
    simp only [some?, Option.map_none] at this
    simp only [JEnv.field, Json.find, this, Option.map_none, List.map_nil]
  | cons b v =>
    obtain ⟨v', h1, h2⟩ := this
    simp only [JEnv.field, Json.find, h2, Option.map_some]
    exact (vec' h).use h1
theorem opt_field {β : Type} {w : β → Json} {r : Json → Res β} {l : List (Str × Option Json)} {fs' : List (Str × Json)} {k : Str} {v : List β}
    (ht : textFields (opts l) = .ok fs') (hn : (l.map Prod.fst).Nodup) (hm : (k, some? w v) ∈ l) (h : ∀ b ∈ v, JRT (w b) r b) :
    JEnv.field (.obj fs') k [] (JEnv.vec r) = .ok v := by
  have := opt_field' (φ := id) ht hn hm h
  rwa [List.map_id] at this

theorem opt_at {l : List (Str × Option Json)} {fs' : List (Str × Json)} {k : Str} {α : Type} {j : Json} {r : Json → Res α} {a : α}
    (ht : textFields (opts l) = .ok fs') (hn : (l.map Prod.fst).Nodup) (hm : (k, some j) ∈ l) (h : JRT j r a) :
    ((Json.obj fs').at' k >>= r) = .ok a := by
  have := textFields_find ht k
  rw [opts_find hn hm] at this
  obtain ⟨v', h1, h2⟩ := this
  simp only [Json.at', Json.find, h2, Option.map_some, Res.bind_ok]
  exact h.use h1

theorem some?_text {β : Type} {w : β → Json} {r : Json → Res β} {φ : β → β} {v : List β} (h : ∀ b ∈ v, JRT (w b) r (φ b)) {j : Json} (hj : some? w v = some j) :
    ∃ v', j.text = .ok v' := by
  cases v with
  | nil => cases hj
  | cons b v =>
    cases hj
    exact (vec' h).textual

/-- the fields of a mesh -/
def meshFields (F : JArith) (m : Mesh) : List (Str × Option Json) :=
  [(Str.lit "header", some (JArith.header FileHeader.current)), (Str.lit "has_colors", some (.bool m.hasColors)), (Str.lit "has_timestamps", some (.bool m.hasTimestamps)),
    (Str.lit "has_labels", some (.bool m.hasLabels)), (Str.lit "has_first_seen_stamps", some (.bool m.hasFirstSeen)),
    (Str.lit "points", some? F.v3f m.points), (Str.lit "colors", some? JArith.color m.colors), (Str.lit "stamps", some? Json.uint m.stamps),
    (Str.lit "first_seen_stamps", some? Json.uint m.firstSeen), (Str.lit "labels", some? JArith.uint32 m.labels), (Str.lit "faces", some? JArith.face m.faces)]

theorem mesh_eq (F : JArith) (m : Mesh) : F.mesh m = .obj (opts (meshFields F m)) := by
  simp only [JArith.mesh, nonempty_eq, opts, meshFields, List.flatMap_cons, List.flatMap_nil, Option.toList_some, List.map_cons, List.map_nil,
    List.append_assoc, List.append_nil, List.cons_append, List.nil_append]

theorem meshKeys (F : JArith) (m : Mesh) : ((meshFields F m).map Prod.fst).Nodup := by
  simp only [meshFields, List.map]; decide +kernel

theorem mesh_tx (m : Mesh) : Tx (opts (meshFields E.toJArith m)) := by
  rintro ⟨k, j⟩ he
  have he := mem_opts.1 he
  simp only [meshFields, List.mem_cons, List.not_mem_nil, or_false] at he
  have dec : ∀ e ∈ meshFields E.toJArith m, utf8 e.1 = true := by
    have : ((meshFields E.toJArith m).map Prod.fst).all utf8 = true := by simp only [meshFields, List.map]; decide +kernel
    intro e he
    exact List.all_eq_true.1 this _ (List.mem_map.2 ⟨e, he, rfl⟩)
  refine ⟨dec (k, some j) (mem_opts.1 (by assumption)), ?_⟩
  rcases he with he | he | he | he | he | he | he | he | he | he | he
  · cases he; exact (header E FileHeader.current (by decide +kernel)).textual
  · cases he; exact (bool _).textual
  · cases he; exact (bool _).textual
  · cases he; exact (bool _).textual
  · cases he; exact (bool _).textual
  · exact some?_text (φ := V3f.printed) (fun b _ => v3f E b) (congrArg Prod.snd he).symm
  · exact some?_text (φ := id) (fun b _ => color E b) (congrArg Prod.snd he).symm
  · exact some?_text (φ := id) (fun b _ => u64 E b) (congrArg Prod.snd he).symm
  · exact some?_text (φ := id) (fun b _ => u64 E b) (congrArg Prod.snd he).symm
  · exact some?_text (φ := id) (fun b _ => (u32 E b).jrt) (congrArg Prod.snd he).symm
  · exact some?_text (φ := id) (fun b _ => face E b) (congrArg Prod.snd he).symm

theorem mesh_read {m : Mesh} {fs' : List (Str × Json)}
    (ht : textFields (opts (meshFields E.toJArith m)) = .ok fs') : E.mesh (.obj fs') = .ok m.printed := by
  have hn := meshKeys E.toJArith m
  simp only [JEnv.mesh, opt_at ht hn (List.mem_of_getElem? (i := 1) rfl) (bool _), opt_at ht hn (List.mem_of_getElem? (i := 2) rfl) (bool _),
    opt_at ht hn (List.mem_of_getElem? (i := 3) rfl) (bool _), opt_at ht hn (List.mem_of_getElem? (i := 4) rfl) (bool _),
    opt_field' (φ := V3f.printed) ht hn (List.mem_of_getElem? (i := 5) rfl) (fun b _ => v3f E b),
    opt_field ht hn (List.mem_of_getElem? (i := 6) rfl) (fun b _ => color E b),
    opt_field ht hn (List.mem_of_getElem? (i := 7) rfl) (fun b _ => u64 E b),
    opt_field ht hn (List.mem_of_getElem? (i := 8) rfl) (fun b _ => u64 E b),
    opt_field ht hn (List.mem_of_getElem? (i := 9) rfl) (fun b _ => (u32 E b).jrt),
    opt_field ht hn (List.mem_of_getElem? (i := 10) rfl) (fun b _ => face E b), Res.bind_ok, Res.pure_eq]
  rfl

theorem mesh (m : Mesh) : JRT (E.toJArith.mesh m) E.mesh m.printed := by
  rw [mesh_eq]
  exact obj (mesh_tx E m) (fun fs' ht => mesh_read E ht)

theorem meshDoc (m : Mesh) : JRT (E.toJArith.mesh m) E.meshDoc m.printed := by
  rw [mesh_eq]
  refine obj (mesh_tx E m) (fun fs' ht => ?_)
  have hn := meshKeys E.toJArith m
  have := textFields_find ht (Str.lit "header")
  rw [opts_find hn (List.mem_of_getElem? (i := 0) rfl)] at this
  obtain ⟨v', h1, h2⟩ := this
  have hh : E.headerIn (.obj fs') (Str.lit "header") = .ok FileHeader.current := by
    simp only [JEnv.headerIn, Json.find, h2, Option.map_some]
    exact (header E FileHeader.current (by decide +kernel)).use h1
  simp only [JEnv.meshDoc, hh, Res.bind_ok]
  rw [if_neg (by decide +kernel)]
  exact mesh_read (E.under FileHeader.current.version) ht

end JRT
end Verif
