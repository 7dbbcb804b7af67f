import Verif.Lemmas.Equal2
import Verif.Props.Binary
/-! # C54: what it means that two attribute objects are equal -/

namespace Verif
namespace NodeAttrs

/-- C54: an object is equal to itself, and to every copy of it, exactly if it holds no NaN outside its position. -/
theorem C54_equal_to_itself (k : Bool) (a : NodeAttrs) : a.isEqual k a = .ok true ↔ a.NanFree := by
  have sem : ∀ {b s} {o : NodeAttrs}, o.semantic? = some s → o.base' = b →
      (semanticEq k b s o = .ok true ↔ NN32 s.bbox.nums ∧ NN64 s.feature.data) := by
    intro b s o h hb
    rw [semanticEq_true, h, hb]
    simp only [Option.some.injEq, exists_eq_left', (BaseAttrs.comp.self _).2 trivial, true_and, SemanticAttrs.same_self]
  have obj : ∀ {b s x} {o : NodeAttrs}, o.semantic? = some s → o.base' = b → o.object? = some x →
      (objectEq k b s x o = .ok true ↔ (NN32 s.bbox.nums ∧ NN64 s.feature.data) ∧ NN64 x.worldRObject.nums) := by
    intro b s x o h hb hx
    rw [objectEq_true, hx]
    simp only [Option.some.injEq, exists_eq_left', sem h hb, ObjectAttrs.comp.self]
  cases a with
  | base b => simp only [isEqual, base', (BaseAttrs.comp.self _).2 trivial, NanFree, doubles, floats, List.not_mem_nil, false_implies, implies_true, and_self]
  | semantic b s =>
    simp only [isEqual, NanFree, doubles, floats]
    rw [sem (o := semantic b s) (b := b) (s := s) rfl rfl]; exact ⟨fun h => ⟨h.2, h.1⟩, fun h => ⟨h.2, h.1⟩⟩
  | object b s o =>
    simp only [isEqual, NanFree, doubles, floats, forall_append]
    rw [obj (o := object b s o) (b := b) (s := s) (x := o) rfl rfl rfl]; exact ⟨fun h => ⟨⟨h.1.2, h.2⟩, h.1.1⟩, fun h => ⟨⟨h.2, h.1.1⟩, h.1.2⟩⟩
  | room b s p =>
    simp only [isEqual, NanFree, doubles, floats]
    rw [sem (o := room b s p) (b := b) (s := s) rfl rfl]; exact ⟨fun h => ⟨h.2, h.1⟩, fun h => ⟨h.2, h.1⟩⟩
  | place b s p =>
    simp only [isEqual, NanFree, doubles, floats, forall_append, bind_ok_true]
    rw [sem (o := place b s p) (b := b) (s := s) rfl rfl, PlaceAttrs.comp.self]; exact ⟨fun h => ⟨⟨h.1.2, h.2⟩, h.1.1⟩, fun h => ⟨⟨h.2, h.1.1⟩, h.1.2⟩⟩
  | place2d b s p =>
    simp only [isEqual, NanFree, doubles, floats, forall_append, bind_ok_true]
    rw [sem (o := place2d b s p) (b := b) (s := s) rfl rfl, Place2dAttrs.comp.self]; exact ⟨fun h => ⟨⟨h.1.2, h.2⟩, h.1.1⟩, fun h => ⟨⟨h.2, h.1.1⟩, h.1.2⟩⟩
  | agent b x =>
    simp only [isEqual, NanFree, doubles, floats, base', (BaseAttrs.comp.self _).2 trivial, Bool.not_true, Bool.false_eq_true, if_false]
    exact AgentAttrs.eq_self
  | khronos b s o x =>
    simp only [isEqual, NanFree, doubles, floats, forall_append, bind_ok_true]
    rw [obj (o := khronos b s o x) (b := b) (s := s) (x := o) rfl rfl rfl, KhronosAttrs.comp.self]
    exact ⟨fun h => ⟨⟨h.1.1.2, h.1.2⟩, h.1.1.1, h.2⟩, fun h => ⟨⟨⟨h.2.1, h.1.1⟩, h.1.2⟩, h.2.2⟩⟩

/-- C54: among objects of the same class the order of the operands does not matter (nor does it for the cases in which the comparison is
undefined). -/
theorem C54_symmetric (k : Bool) (a b : NodeAttrs) (h : a.cls = b.cls) : a.isEqual k b = b.isEqual k a := isEqual_symm h

/-- C54: equality is transitive, for all classes. -/
theorem C54_transitive (k : Bool) (a b c : NodeAttrs) (h : a.isEqual k b = .ok true) (h' : b.isEqual k c = .ok true) : a.isEqual k c = .ok true :=
  isEqual_trans h h'

/-- C54: the comparison always has a result if the semantic features (for agents, the two bag-of-words vectors) of the operands have the same
size. -/
theorem C54_defined (k : Bool) (a b : NodeAttrs) (h : a.SameShape b) : ∃ r, a.isEqual k b = .ok r := by
  have sem : ∀ {x s}, (∀ t, b.semantic? = some t → s.feature.rows = t.feature.rows ∧ s.feature.cols = t.feature.cols) →
      ∃ r, semanticEq k x s b = .ok r := by
    intro x s h
    unfold semanticEq
    split
    · exact ⟨_, rfl⟩
    · next t ht =>
      split
      · exact ⟨_, rfl⟩
      · unfold SemanticAttrs.eq
        split
        · exact ⟨_, Matrix.eqDyn_ok (h t ht).1 (h t ht).2⟩
        · exact ⟨_, rfl⟩
  have bnd : ∀ {m : Res Bool} {r : Bool}, (∃ v, m = .ok v) → ∃ v, (m >>= fun e => if (!e) = true then Res.ok false else Res.ok r) = .ok v := by
    rintro m r ⟨v, rfl⟩
    cases v
    · exact ⟨_, rfl⟩
    · exact ⟨_, rfl⟩
  have obj : ∀ {x s o}, (∃ r, semanticEq k x s b = .ok r) → ∃ r, objectEq k x s o b = .ok r := by
    intro x s o h
    unfold objectEq
    split
    · exact ⟨_, rfl⟩
    · exact bnd h
  have key : ∀ {s : SemanticAttrs}, (∀ t ∈ b.feature?, s.feature.rows = t.rows ∧ s.feature.cols = t.cols) →
      ∀ t, b.semantic? = some t → s.feature.rows = t.feature.rows ∧ s.feature.cols = t.feature.cols := by
    intro s h t ht
    apply h
    cases b <;> first | cases ht | skip
    all_goals rfl
  cases a with
  | base x => exact ⟨_, rfl⟩
  | semantic x s =>
    simp only [isEqual]
    refine sem (key ?_)
    cases b <;> exact h _ rfl
  | object x s o =>
    simp only [isEqual]
    refine obj (sem (key ?_))
    cases b <;> exact h _ rfl
  | room x s p =>
    cases b with
    | room y t q => simp only [isEqual]; exact sem (key (h _ rfl))
    | _ => exact ⟨_, rfl⟩
  | place x s p =>
    cases b with
    | place y t q => simp only [isEqual]; exact bnd (sem (key (h _ rfl)))
    | _ => exact ⟨_, rfl⟩
  | place2d x s p =>
    cases b with
    | place2d y t q => simp only [isEqual]; exact bnd (sem (key (h _ rfl)))
    | _ => exact ⟨_, rfl⟩
  | agent x s =>
    cases b with
    | agent y t =>
      obtain ⟨h1, h2, h3, h4⟩ := h
      simp only [isEqual]
      split
      · exact ⟨_, rfl⟩
      · unfold AgentAttrs.eq
        split
        · rw [Matrix.eqDyn_ok h1 h2, Matrix.eqDyn_ok h3 h4]
          cases listEq (fun x1 x2 => x1 == x2) s.dbowIds.data t.dbowIds.data
          · exact ⟨_, rfl⟩
          · exact ⟨_, rfl⟩
        · exact ⟨_, rfl⟩
    | _ => exact ⟨_, rfl⟩
  | khronos x s o p =>
    cases b with
    | khronos y t o' q => simp only [isEqual]; exact bnd (obj (sem (key (h _ rfl))))
    | _ => exact ⟨_, rfl⟩

/-- C54: for objects whose numbers are neither NaN nor negative zero, `a == b` says exactly this: `b` has the class of `a` or one derived from
it, and its subobject of that class agrees with `a` in every member, except those `forget` lists. -/
theorem C54_tells_apart (k : Bool) (a b : NodeAttrs) (ta : a.Typed) (tb : b.Typed) (pa : a.Plain) (pb : b.Plain) :
    a.isEqual k b = .ok true ↔ ∃ b', b.slice a.cls = some b' ∧ b'.forget = a.forget := by
  have hb : a.base'.eq b.base' = true ↔ a.base' = b.base' :=
    BaseAttrs.comp.plain _ _ (forall_append.1 pa.1).1 (forall_append.1 pb.1).1
  replace pa := And.intro (forall_append.1 pa.1).2 pa.2
  replace pb := And.intro (forall_append.1 pb.1).2 pb.2
  cases a with
  | base x =>
    simp only [isEqual, Res.ok.injEq, cls, slice, Option.some.injEq, exists_eq_left', forget, base.injEq]
    exact hb.trans eq_comm
  | semantic x s =>
    simp only [isEqual, semanticEq_true, cls]
    have hb' : x.eq b.base' = true ↔ x = b.base' := hb
    simp only [hb']
    cases b <;> simp only [semantic?, slice, reduceCtorEq, false_and, exists_false, Option.some.injEq, exists_eq_left', forget, semantic.injEq, base']
    all_goals
      simp only [doubles, floats, forall_append] at pa pb
      first
        | rw [SemanticAttrs.same_plain ta tb pa.2 pb.2 pa.1 pb.1]
        | rw [SemanticAttrs.same_plain ta tb pa.2 pb.2 pa.1 pb.1.1]
        | rw [SemanticAttrs.same_plain ta tb.1 pa.2 pb.2 pa.1 pb.1.1]
        | rw [SemanticAttrs.same_plain ta tb pa.2 pb.2.1 pa.1 pb.1.1]
      exact ⟨fun h => ⟨h.1.symm, h.2.symm⟩, fun h => ⟨h.1.symm, h.2.symm⟩⟩
  | object x s o =>
    simp only [isEqual, objectEq_true, semanticEq_true, cls]
    have hb' : x.eq b.base' = true ↔ x = b.base' := hb
    simp only [hb']
    cases b <;> simp only [semantic?, object?, slice, reduceCtorEq, false_and, exists_false, Option.some.injEq, exists_eq_left', forget, object.injEq, base']
    all_goals
      simp only [doubles, floats, forall_append] at pa pb
      first
        | rw [SemanticAttrs.same_plain ta tb pa.2 pb.2 pa.1.1 pb.1.1]
        | rw [SemanticAttrs.same_plain ta tb pa.2 pb.2.1 pa.1.1 pb.1.1]
      rw [ObjectAttrs.comp.plain _ _ pa.1.2 pb.1.2]
      exact ⟨fun h => ⟨h.1.1.symm, h.1.2.symm, h.2.symm⟩, fun h => ⟨⟨h.1.symm, h.2.1.symm⟩, h.2.2.symm⟩⟩
  | room x s p =>
    cases b with
    | room y t q =>
      simp only [isEqual, semanticEq_true, semantic?, cls, slice, Option.some.injEq, exists_eq_left', forget, room.injEq, base'] at *
      simp only [doubles, floats] at pa pb
      rw [hb, SemanticAttrs.same_plain ta tb pa.2 pb.2 pa.1 pb.1]
      exact ⟨fun h => ⟨h.1.symm, h.2.symm, trivial⟩, fun h => ⟨h.1.symm, h.2.1.symm⟩⟩
    | _ => simp [isEqual, cls, slice]
  | place x s p =>
    cases b with
    | place y t q =>
      simp only [isEqual, bind_ok_true, semanticEq_true, semantic?, cls, slice, Option.some.injEq, exists_eq_left', forget, place.injEq, base'] at *
      simp only [doubles, floats, forall_append] at pa pb
      rw [hb, SemanticAttrs.same_plain ta tb pa.2 pb.2 pa.1.1 pb.1.1, PlaceAttrs.comp.plain _ _ pa.1.2 pb.1.2]
      exact ⟨fun h => ⟨h.1.1.symm, h.1.2.symm, h.2.symm⟩, fun h => ⟨⟨h.1.symm, h.2.1.symm⟩, h.2.2.symm⟩⟩
    | _ => simp [isEqual, cls, slice]
  | place2d x s p =>
    cases b with
    | place2d y t q =>
      simp only [isEqual, bind_ok_true, semanticEq_true, semantic?, cls, slice, Option.some.injEq, exists_eq_left', forget, place2d.injEq, base'] at *
      simp only [doubles, floats, forall_append] at pa pb
      rw [hb, SemanticAttrs.same_plain ta.1 tb.1 pa.2 pb.2 pa.1.1 pb.1.1, Place2dAttrs.eq_plain ta.2 tb.2 pa.1.2 pb.1.2]
      exact ⟨fun h => ⟨h.1.1.symm, h.1.2.symm, h.2.symm⟩, fun h => ⟨⟨h.1.symm, h.2.1.symm⟩, h.2.2.symm⟩⟩
    | _ => simp [isEqual, cls, slice]
  | agent x s =>
    cases b with
    | agent y t =>
      simp only [cls, slice, Option.some.injEq, exists_eq_left', forget, agent.injEq, base'] at *
      simp only [doubles, floats] at pa pb
      constructor
      · intro h
        obtain ⟨h1, c, z, e, h2⟩ := agent_true h
        cases e
        exact ⟨(hb.1 h1).symm, ((AgentAttrs.eq_plain pa.1 pb.1 pa.2 pb.2).1 h2).symm⟩
      · rintro ⟨h1, h2⟩
        simp only [isEqual, base', hb.2 h1.symm, Bool.not_true, Bool.false_eq_true, if_false]
        exact (AgentAttrs.eq_plain pa.1 pb.1 pa.2 pb.2).2 h2.symm
    | _ => simp [isEqual, cls, slice]
  | khronos x s o p =>
    cases b with
    | khronos y t o' q =>
      simp only [isEqual, bind_ok_true, objectEq_true, semanticEq_true, semantic?, object?, cls, slice, Option.some.injEq, exists_eq_left', forget, khronos.injEq, base'] at *
      simp only [doubles, floats, forall_append] at pa pb
      rw [hb, SemanticAttrs.same_plain ta tb pa.2.1 pb.2.1 pa.1.1 pb.1.1, ObjectAttrs.comp.plain _ _ pa.1.2 pb.1.2, KhronosAttrs.eq_plain pa.2.2 pb.2.2]
      exact ⟨fun h => ⟨h.1.1.1.symm, h.1.1.2.symm, h.1.2.symm, h.2.symm⟩, fun h => ⟨⟨⟨h.1.symm, h.2.1.symm⟩, h.2.2.1.symm⟩, h.2.2.2.symm⟩⟩
    | _ => simp [isEqual, cls, slice]

/-! ## The hypotheses can be met -/

/-- A place with a non-trivial feature, a box and mesh connections. -/
def samplePlace : NodeAttrs :=
  .place { position := ⟨0x3FF0000000000000, 0, 0xBFF0000000000000⟩ }
    { name := "p".toUTF8.toList, bbox := { type := 1, dims := ⟨0x3F800000, 0x3F800000, 0x40000000⟩ }, feature := ⟨2, 1, [0x3FF0000000000000, 0]⟩ }
    { distance := 0x3FE0000000000000, voxblox := [⟨(1, 2, 3), (0, 0x3FF0000000000000, 0), 4, some 5⟩], pcl := [1, 2, 3] }

example : samplePlace.NanFree ∧ samplePlace.isEqual true samplePlace = .ok true := by
  refine ⟨?_, by decide +kernel⟩
  exact (C54_equal_to_itself true samplePlace).1 (by decide +kernel)
example : samplePlace.Typed := ⟨by refine ⟨rfl, rfl, ?_⟩; decide, 2, 1, by refine ⟨rfl, rfl, ?_⟩; decide⟩
example : samplePlace.Plain := by unfold Plain F64.Plain F32.Plain; decide +kernel
/-- Transitivity across classes. -/
example : (base samplePlace.base').isEqual true (semantic samplePlace.base' {}) = .ok true ∧
    (semantic samplePlace.base' {}).isEqual true (place samplePlace.base' {} {}) = .ok true := by decide +kernel
example : samplePlace.SameShape (semantic {} { feature := ⟨2, 1, [0, 0]⟩ }) := by
  intro s hs t ht; cases hs; cases ht; exact ⟨rfl, rfl⟩

/-! ## Storing -/

/-- C54: what is read back from a file compares equal to what was written, in both directions, if it holds no NaN outside its position and is no
Khronos object. -/
theorem C54_reloaded (k : Bool) (a : NodeAttrs) (hn : a.NanFree) (hk : a.cls ≠ .khronos)
    (R : Registry NodeClass) (fac : OMap UInt8 NodeClass) (ha : a.Typed) (hf : fac.find? (R.typeId a.cls) = some a.cls) (bs pre post : List UInt8)
    (E : Env) (hv : E.version = FileHeader.current.version) (hw : Wr.nodeAttrs R a = .ok bs) (hb : E.buf = pre ++ bs ++ post) :
    ∃ a', Rd.nodeAttrs fac E pre.length = .ok (some a', pre.length + bs.length) ∧ a.isEqual k a' = .ok true ∧ a'.isEqual k a = .ok true := by
  refine ⟨a.kept, C23_attributes_round_trip R fac a ha hf bs pre post E hv hw hb, ?_⟩
  have h := (C54_equal_to_itself k a).2 hn
  have e : a.isEqual k a.kept = .ok true := by
    cases a with
    | khronos b s o x => exact absurd rfl hk
    | place2d b s p => exact h
    | _ => exact h
  refine ⟨e, ?_⟩
  rw [C54_symmetric k a.kept a (by cases a <;> rfl)]
  exact e

/-- The full claim is false: a Khronos object is equal to what is read back only if it lost nothing. -/
theorem C54_khronos_reloaded_differs (k : Bool) (b : BaseAttrs) (s : SemanticAttrs) (x : KhronosAttrs) :
    (khronos b s { registered := true } x).isEqual k (khronos b s { registered := true } x).kept ≠ .ok true := by
  intro h
  have := (objectEq_true.1 (khronos_true h))
  obtain ⟨y, hy, _, he⟩ := this
  cases hy
  simp [ObjectAttrs.eq] at he

/-! ## What equality does not mean -/

/-- The order of the operands matters across classes: an object equals its copy in a derived class, but not the other way round. -/
theorem C54_not_symmetric (k : Bool) :
    (base {}).isEqual k (semantic {} {}) = .ok true ∧ (semantic {} {}).isEqual k (base {}) = .ok false ∧
    (semantic {} {}).isEqual k (object {} {} {}) = .ok true ∧ (object {} {} {}).isEqual k (semantic {} {}) = .ok false := by
  cases k <;> decide +kernel

/-- Equal objects may differ: the class probabilities of rooms, three members of 2D places and the time stamps of a trajectory are ignored. -/
theorem C54_ignores (k : Bool) (b : BaseAttrs) (s : SemanticAttrs) :
    (∀ p q o, (room b s p).isEqual k o = (room b s q).isEqual k o) ∧
    (∀ p i j m o, (place2d b s { p with pclMin := i, pclMax := j, needFinishMerge := m }).isEqual k o = (place2d b s p).isEqual k o) ∧
    (∀ o x ts y, (khronos b s o { x with trajectoryTimestamps := ts }).isEqual k y = (khronos b s o x).isEqual k y) :=
  ⟨fun _ _ _ => rfl, fun _ _ _ _ _ => rfl, fun _ _ _ _ => rfl⟩

/-- Comparing two objects that differ in nothing but the size of their semantic feature is an error, not `false`: the program ends, or (without
assertions) reads memory it must not. -/
theorem C54_feature_sizes (k : Bool) :
    (semantic {} { feature := ⟨1, 1, [0]⟩ }).isEqual k (semantic {} { feature := ⟨2, 1, [0, 0]⟩ }) = if k then .throw .abort else .ub := by
  cases k <;> decide +kernel

/-- The same for the bag-of-words vectors of an agent. -/
theorem C54_bow_sizes (k : Bool) :
    (agent {} { dbowIds := ⟨1, 1, [7]⟩ }).isEqual k (agent {} { dbowIds := ⟨2, 1, [7, 8]⟩ }) = if k then .throw .abort else .ub := by
  cases k <;> decide +kernel

/-- An object with a NaN in its feature differs from itself; with a NaN position it does not. -/
theorem C54_nan (k : Bool) :
    (semantic {} { feature := ⟨1, 1, [0x7FF8000000000000]⟩ }).isEqual k (semantic {} { feature := ⟨1, 1, [0x7FF8000000000000]⟩ }) = .ok false ∧
    (base { position := ⟨0x7FF8000000000000, 0, 0⟩ }).isEqual k (base { position := ⟨0x7FF8000000000001, 0, 0⟩ }) = .ok true := by
  cases k <;> decide +kernel

end NodeAttrs

/-! ## Edges, boxes and meshes -/

/-- C54, edge attributes: an equivalence (without NaN), and exact on plain numbers. -/
theorem C54_edge_attributes (a b c : EdgeAttrs) :
    (a.eq a = true ↔ a.weight.isNan = false) ∧ a.eq b = b.eq a ∧ (a.eq b = true → b.eq c = true → a.eq c = true) ∧
    (a.weight.Plain → b.weight.Plain → (a.eq b = true ↔ a = b)) :=
  ⟨EdgeAttrs.comp.self a, EdgeAttrs.comp.symm a b, EdgeAttrs.comp.trans a b c, EdgeAttrs.comp.plain a b⟩

example : ({ weighted := true, weight := 0x3FF0000000000000 } : EdgeAttrs).weight.Plain := by unfold F64.Plain; decide +kernel

/-- C54, bounding boxes: exact on plain numbers up to the geometry of invalid boxes and the rotation of axis-aligned ones. -/
theorem C54_bounding_boxes (a b c : BBox) :
    (a.eq a = true ↔ ∀ x ∈ a.nums, x.isNan = false) ∧ a.eq b = b.eq a ∧ (a.eq b = true → b.eq c = true → a.eq c = true) ∧
    (a.rot.Sized 3 3 → b.rot.Sized 3 3 → (∀ x ∈ a.nums, x.Plain) → (∀ x ∈ b.nums, x.Plain) → (a.eq b = true ↔ a.forget = b.forget)) :=
  ⟨BBox.comp.self a, BBox.comp.symm a b, BBox.comp.trans a b c, fun h1 h2 h3 h4 => BBox.eq_plain h1 h2 h3 h4⟩

example : ({ type := 2, dims := ⟨0x3F800000, 0x3F800000, 0x40000000⟩ } : BBox).rot.Sized 3 3 ∧
    ∀ x ∈ ({ type := 2, dims := ⟨0x3F800000, 0x3F800000, 0x40000000⟩ } : BBox).nums, x.Plain := by
  refine ⟨⟨rfl, rfl, by decide⟩, by unfold F32.Plain; decide +kernel⟩

/-- C54, meshes: every member counts. -/
theorem C54_meshes (a b c : Mesh) :
    (a.eq a = true ↔ ∀ p ∈ a.points, ∀ x ∈ p.nums, x.isNan = false) ∧ a.eq b = b.eq a ∧ (a.eq b = true → b.eq c = true → a.eq c = true) ∧
    ((∀ p ∈ a.points, ∀ x ∈ p.nums, x.Plain) → (∀ p ∈ b.points, ∀ x ∈ p.nums, x.Plain) → (a.eq b = true ↔ a = b)) := by
  have key : ∀ (P : F32 → Prop) (l : List V3f), (∀ x ∈ l.flatMap (·.nums), P x) ↔ ∀ p ∈ l, ∀ x ∈ p.nums, P x := by
    intro P l
    simp only [List.mem_flatMap]
    exact ⟨fun h p hp x hx => h x ⟨p, hp, hx⟩, fun h x ⟨p, hp, hx⟩ => h p hp x hx⟩
  refine ⟨(Mesh.comp.self a).trans (key _ _), Mesh.comp.symm a b, Mesh.comp.trans a b c, fun h1 h2 => Mesh.comp.plain a b ((key _ _).2 h1) ((key _ _).2 h2)⟩

example : ∀ p ∈ ({ points := [⟨0x3F800000, 0, 0x40000000⟩] } : Mesh).points, ∀ x ∈ p.nums, x.Plain := by unfold F32.Plain; decide +kernel

end Verif
