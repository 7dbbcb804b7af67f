import Verif.Lemmas.Equal
/-! # Comparing attribute objects -/

namespace Verif

theorem Matrix.eqDyn_symm {α : Type} {c : α → α → Bool} {G P : α → Prop} (h : Comp c G P) (k : Bool) (a b : Matrix α) :
    Matrix.eqDyn k c a b = Matrix.eqDyn k c b a := by
  unfold Matrix.eqDyn
  simp only [h.list.symm b.data, eq_comm (a := b.rows), eq_comm (a := b.cols)]

theorem Matrix.eqDyn_true {α : Type} {c : α → α → Bool} {k : Bool} {a b : Matrix α} :
    Matrix.eqDyn k c a b = .ok true ↔ a.rows = b.rows ∧ a.cols = b.cols ∧ listEq c a.data b.data = true := by
  unfold Matrix.eqDyn
  by_cases h : a.rows = b.rows ∧ a.cols = b.cols
  · rw [if_pos h]; simp [h]
  · rw [if_neg h]
    constructor
    · intro e; split at e <;> cases e
    · rintro ⟨h1, h2, _⟩; exact absurd ⟨h1, h2⟩ h

theorem Matrix.eqDyn_plain {α : Type} {c : α → α → Bool} {G P : α → Prop} (h : Comp c G P) {k : Bool} {a b : Matrix α}
    (pa : ∀ x ∈ a.data, P x) (pb : ∀ x ∈ b.data, P x) : Matrix.eqDyn k c a b = .ok true ↔ a = b := by
  obtain ⟨r1, c1, d1⟩ := a
  obtain ⟨r2, c2, d2⟩ := b
  simp only [Matrix.eqDyn_true, h.list.plain _ _ pa pb, Matrix.mk.injEq]

theorem Matrix.eqDyn_ok {α : Type} {c : α → α → Bool} {k : Bool} {a b : Matrix α} (h : a.rows = b.rows) (h' : a.cols = b.cols) :
    Matrix.eqDyn k c a b = .ok (listEq c a.data b.data) := by
  unfold Matrix.eqDyn; rw [if_pos ⟨h, h'⟩]

/-- equality of the semantic members -/
def SemanticAttrs.Same (a b : SemanticAttrs) : Prop :=
  (a.name = b.name ∧ a.color = b.color ∧ BBox.eq a.bbox b.bbox = true ∧ a.label = b.label) ∧
  a.feature.rows = b.feature.rows ∧ a.feature.cols = b.feature.cols ∧ listEq F64.eq a.feature.data b.feature.data = true

theorem SemanticAttrs.eq_true {k : Bool} {a b : SemanticAttrs} : SemanticAttrs.eq k a b = .ok true ↔ a.Same b := by
  unfold SemanticAttrs.eq SemanticAttrs.Same
  simp only [Bool.and_eq_true, beq_iff_eq, and_assoc]
  split
  · next h => rw [Matrix.eqDyn_true]; exact ⟨fun x => ⟨h.1, h.2.1, h.2.2.1, h.2.2.2, x⟩, fun x => x.2.2.2.2⟩
  · next h =>
    constructor
    · intro e; cases e
    · rintro ⟨h1, h2, h3, h4, _⟩; exact absurd ⟨h1, h2, h3, h4⟩ h

theorem SemanticAttrs.eq_symm (k : Bool) (a b : SemanticAttrs) : SemanticAttrs.eq k a b = SemanticAttrs.eq k b a := by
  unfold SemanticAttrs.eq
  simp only [BEq.comm (a := b.name), BEq.comm (a := b.color), BBox.comp.symm b.bbox, BEq.comm (a := b.label),
    Matrix.eqDyn_symm F64.comp k b.feature]

theorem SemanticAttrs.Same.trans {a b d : SemanticAttrs} (h : a.Same b) (h' : b.Same d) : a.Same d :=
  ⟨⟨h.1.1.trans h'.1.1, h.1.2.1.trans h'.1.2.1, BBox.comp.trans _ _ _ h.1.2.2.1 h'.1.2.2.1, h.1.2.2.2.trans h'.1.2.2.2⟩,
    h.2.1.trans h'.2.1, h.2.2.1.trans h'.2.2.1, F64.comp.list.trans _ _ _ h.2.2.2 h'.2.2.2⟩

theorem SemanticAttrs.same_self {a : SemanticAttrs} : a.Same a ↔ NN32 a.bbox.nums ∧ NN64 a.feature.data := by
  unfold SemanticAttrs.Same
  simp only [true_and, and_true, BBox.comp.self, F64.comp.list.self]

theorem SemanticAttrs.same_plain {a b : SemanticAttrs} (ta : a.Typed) (tb : b.Typed) (ha : PL32 a.bbox.nums) (hb : PL32 b.bbox.nums)
    (pa : PL64 a.feature.data) (pb : PL64 b.feature.data) : a.Same b ↔ a.forget = b.forget := by
  obtain ⟨n, c, x, l, f⟩ := a
  obtain ⟨n', c', x', l', f'⟩ := b
  have e := Matrix.eqDyn_plain F64.comp (k := true) pa pb
  rw [Matrix.eqDyn_true] at e
  unfold SemanticAttrs.Same
  rw [e, BBox.eq_plain ta.1 tb.1 ha hb]
  simp only [SemanticAttrs.forget, SemanticAttrs.mk.injEq, and_assoc]

theorem AgentAttrs.eq_symm (k : Bool) (a b : AgentAttrs) : AgentAttrs.eq k a b = AgentAttrs.eq k b a := by
  unfold AgentAttrs.eq
  simp only [Quat.comp.symm b.worldRBody, BEq.comm (a := b.externalKey), Matrix.eqDyn_symm beqComp k b.dbowIds,
    Matrix.eqDyn_symm F32.comp k b.dbowValues]

theorem AgentAttrs.eq_true {k : Bool} {a b : AgentAttrs} : AgentAttrs.eq k a b = .ok true ↔ Quat.eq a.worldRBody b.worldRBody = true ∧
    a.externalKey = b.externalKey ∧ Matrix.eqDyn k (· == ·) a.dbowIds b.dbowIds = .ok true ∧ Matrix.eqDyn k F32.eq a.dbowValues b.dbowValues = .ok true := by
  unfold AgentAttrs.eq
  simp only [Bool.and_eq_true, beq_iff_eq]
  split
  · next h =>
    constructor
    · intro e
      cases hm : Matrix.eqDyn k (· == ·) a.dbowIds b.dbowIds with
      | ok v =>
        rw [hm] at e
        cases v
        · cases e
        · exact ⟨h.1, h.2, rfl, e⟩
      | throw x => rw [hm] at e; cases e
      | ub => rw [hm] at e; cases e
    · rintro ⟨_, _, h1, h2⟩; rw [h1]; exact h2
  · next h =>
    constructor
    · intro e; cases e
    · rintro ⟨h1, h2, _⟩; exact absurd ⟨h1, h2⟩ h

theorem Matrix.eqDyn_trans {α : Type} {c : α → α → Bool} {G P : α → Prop} (h : Comp c G P) {k : Bool} {a b d : Matrix α}
    (h1 : Matrix.eqDyn k c a b = .ok true) (h2 : Matrix.eqDyn k c b d = .ok true) : Matrix.eqDyn k c a d = .ok true := by
  rw [Matrix.eqDyn_true] at *
  exact ⟨h1.1.trans h2.1, h1.2.1.trans h2.2.1, h.list.trans _ _ _ h1.2.2 h2.2.2⟩

theorem AgentAttrs.eq_trans {k : Bool} {a b d : AgentAttrs} (h1 : AgentAttrs.eq k a b = .ok true) (h2 : AgentAttrs.eq k b d = .ok true) :
    AgentAttrs.eq k a d = .ok true := by
  rw [AgentAttrs.eq_true] at *
  exact ⟨Quat.comp.trans _ _ _ h1.1 h2.1, h1.2.1.trans h2.2.1, Matrix.eqDyn_trans beqComp h1.2.2.1 h2.2.2.1,
    Matrix.eqDyn_trans F32.comp h1.2.2.2 h2.2.2.2⟩

theorem AgentAttrs.eq_self {k : Bool} {a : AgentAttrs} : AgentAttrs.eq k a a = .ok true ↔ NN64 a.worldRBody.nums ∧ NN32 a.dbowValues.data := by
  rw [AgentAttrs.eq_true, Matrix.eqDyn_true, Matrix.eqDyn_true, Quat.comp.self, F32.comp.list.self, beqComp.list.self]
  simp

theorem AgentAttrs.eq_plain {k : Bool} {a b : AgentAttrs} (pa : PL64 a.worldRBody.nums) (pb : PL64 b.worldRBody.nums)
    (qa : PL32 a.dbowValues.data) (qb : PL32 b.dbowValues.data) : AgentAttrs.eq k a b = .ok true ↔ a = b := by
  obtain ⟨q, e, i, v⟩ := a
  obtain ⟨q', e', i', v'⟩ := b
  rw [AgentAttrs.eq_true, Matrix.eqDyn_plain beqComp (fun _ _ => trivial) (fun _ _ => trivial), Matrix.eqDyn_plain F32.comp qa qb,
    Quat.comp.plain _ _ pa pb]
  simp only [AgentAttrs.mk.injEq]

/-! ## Objects -/

namespace NodeAttrs

theorem ite_not_ok {e : Bool} {r : Bool} : ((if (!e) = true then Res.ok false else Res.ok r) : Res Bool) = .ok true ↔ e = true ∧ r = true := by
  cases e <;> simp

theorem bind_ok_true {m : Res Bool} {r : Bool} :
    (m >>= fun e => if (!e) = true then Res.ok false else Res.ok r) = .ok true ↔ m = .ok true ∧ r = true := by
  cases m with
  | ok v => exact ite_not_ok.trans (by simp)
  | throw x => constructor
               · intro e; cases e
               · rintro ⟨e, _⟩; cases e
  | ub => constructor
          · intro e; cases e
          · rintro ⟨e, _⟩; cases e

theorem semanticEq_true {k : Bool} {b : BaseAttrs} {s : SemanticAttrs} {o : NodeAttrs} :
    semanticEq k b s o = .ok true ↔ ∃ t, o.semantic? = some t ∧ b.eq o.base' = true ∧ s.Same t := by
  unfold semanticEq
  cases h : o.semantic? with
  | none => simp
  | some t =>
    simp only [Option.some.injEq, exists_eq_left']
    cases b.eq o.base'
    · simp
    · simp [SemanticAttrs.eq_true]

theorem objectEq_true {k : Bool} {b : BaseAttrs} {s : SemanticAttrs} {x : ObjectAttrs} {o : NodeAttrs} :
    objectEq k b s x o = .ok true ↔ ∃ y, o.object? = some y ∧ semanticEq k b s o = .ok true ∧ x.eq y = true := by
  unfold objectEq
  cases h : o.object? with
  | none => simp
  | some y => simp only [Option.some.injEq, exists_eq_left', bind_ok_true]

theorem room_true {k : Bool} {b : BaseAttrs} {s : SemanticAttrs} {p : OMap Str F64} {o : NodeAttrs} (h : (room b s p).isEqual k o = .ok true) :
    semanticEq k b s o = .ok true := by
  cases o with
  | room y t q => exact h
  | _ => cases h

theorem place_true {k : Bool} {b : BaseAttrs} {s : SemanticAttrs} {p : PlaceAttrs} {o : NodeAttrs} (h : (place b s p).isEqual k o = .ok true) :
    semanticEq k b s o = .ok true := by
  cases o with
  | place y t q => exact (bind_ok_true.1 h).1
  | _ => cases h

theorem place2d_true {k : Bool} {b : BaseAttrs} {s : SemanticAttrs} {p : Place2dAttrs} {o : NodeAttrs} (h : (place2d b s p).isEqual k o = .ok true) :
    semanticEq k b s o = .ok true := by
  cases o with
  | place2d y t q => exact (bind_ok_true.1 h).1
  | _ => cases h

theorem khronos_true {k : Bool} {b : BaseAttrs} {s : SemanticAttrs} {x : ObjectAttrs} {p : KhronosAttrs} {o : NodeAttrs}
    (h : (khronos b s x p).isEqual k o = .ok true) : objectEq k b s x o = .ok true := by
  cases o with
  | khronos y t q _ => exact (bind_ok_true.1 h).1
  | _ => cases h

theorem agent_true {k : Bool} {b : BaseAttrs} {x : AgentAttrs} {o : NodeAttrs} (h : (agent b x).isEqual k o = .ok true) :
    b.eq o.base' = true ∧ ∃ c y, o = agent c y ∧ x.eq k y = .ok true := by
  cases o with
  | agent c y =>
    simp only [isEqual] at h
    split at h
    · cases h
    · next e => exact ⟨by simpa using e, c, y, rfl, h⟩
  | _ => cases h

/-- equal objects have equal base parts -/
theorem isEqual_base {k : Bool} {a b : NodeAttrs} (h : a.isEqual k b = .ok true) : a.base'.eq b.base' = true := by
  have sem : ∀ {x s}, semanticEq k x s b = .ok true → x.eq b.base' = true := fun h => (semanticEq_true.1 h).choose_spec.2.1
  cases a with
  | base _ => exact Res.ok.inj h
  | semantic _ _ => exact sem h
  | object _ _ _ => exact sem (objectEq_true.1 h).choose_spec.2.1
  | room _ _ _ => exact sem (room_true h)
  | place _ _ _ => exact sem (place_true h)
  | place2d _ _ _ => exact sem (place2d_true h)
  | agent _ _ => exact (agent_true h).1
  | khronos _ _ _ _ => exact sem (objectEq_true.1 (khronos_true h)).choose_spec.2.1

/-- equal objects have equal semantic parts -/
theorem isEqual_semantic {k : Bool} {a b : NodeAttrs} {s : SemanticAttrs} (h : a.isEqual k b = .ok true) (hs : a.semantic? = some s) :
    ∃ t, b.semantic? = some t ∧ s.Same t := by
  have sem : ∀ {x s}, semanticEq k x s b = .ok true → ∃ t, b.semantic? = some t ∧ s.Same t :=
    fun h => ⟨_, (semanticEq_true.1 h).choose_spec.1, (semanticEq_true.1 h).choose_spec.2.2⟩
  cases a with
  | base _ => cases hs
  | agent _ _ => cases hs
  | semantic _ _ => cases hs; exact sem h
  | object _ _ _ => cases hs; exact sem (objectEq_true.1 h).choose_spec.2.1
  | room _ _ _ => cases hs; exact sem (room_true h)
  | place _ _ _ => cases hs; exact sem (place_true h)
  | place2d _ _ _ => cases hs; exact sem (place2d_true h)
  | khronos _ _ _ _ => cases hs; exact sem (objectEq_true.1 (khronos_true h)).choose_spec.2.1

/-- equal objects have equal object parts -/
theorem isEqual_object {k : Bool} {a b : NodeAttrs} {x : ObjectAttrs} (h : a.isEqual k b = .ok true) (hx : a.object? = some x) :
    ∃ y, b.object? = some y ∧ x.eq y = true := by
  have obj : ∀ {x s z}, objectEq k x s z b = .ok true → ∃ y, b.object? = some y ∧ z.eq y = true :=
    fun h => ⟨_, (objectEq_true.1 h).choose_spec.1, (objectEq_true.1 h).choose_spec.2.2⟩
  cases a with
  | object _ _ _ => cases hx; exact obj h
  | khronos _ _ _ _ => cases hx; exact obj (khronos_true h)
  | _ => cases hx

theorem semanticEq_trans {k : Bool} {b : BaseAttrs} {s : SemanticAttrs} {o p : NodeAttrs} (h : semanticEq k b s o = .ok true)
    (h' : o.isEqual k p = .ok true) : semanticEq k b s p = .ok true := by
  obtain ⟨t, h1, h2, h3⟩ := semanticEq_true.1 h
  obtain ⟨u, k1, k2⟩ := isEqual_semantic h' h1
  exact semanticEq_true.2 ⟨u, k1, BaseAttrs.comp.trans _ _ _ h2 (isEqual_base h'), h3.trans k2⟩

theorem objectEq_trans {k : Bool} {b : BaseAttrs} {s : SemanticAttrs} {x : ObjectAttrs} {o p : NodeAttrs} (h : objectEq k b s x o = .ok true)
    (h' : o.isEqual k p = .ok true) : objectEq k b s x p = .ok true := by
  obtain ⟨y, h1, h2, h3⟩ := objectEq_true.1 h
  obtain ⟨z, k1, k2⟩ := isEqual_object h' h1
  exact objectEq_true.2 ⟨z, k1, semanticEq_trans h2 h', ObjectAttrs.comp.trans _ _ _ h3 k2⟩

theorem isEqual_trans {k : Bool} {a b c : NodeAttrs} (h : a.isEqual k b = .ok true) (h' : b.isEqual k c = .ok true) : a.isEqual k c = .ok true := by
  cases a with
  | base x => exact congrArg Res.ok (BaseAttrs.comp.trans _ _ _ (Res.ok.inj h) (isEqual_base h'))
  | semantic x s => exact semanticEq_trans h h'
  | object x s o => exact objectEq_trans h h'
  | room x s p =>
    cases b with
    | room y t q =>
      cases c with
      | room z u r => exact semanticEq_trans (o := room y t q) h h'
      | _ => cases h'
    | _ => cases h
  | place x s p =>
    cases b with
    | place y t q =>
      cases c with
      | place z u r =>
        obtain ⟨h1, h2⟩ := bind_ok_true.1 h
        obtain ⟨k1, k2⟩ := bind_ok_true.1 h'
        exact bind_ok_true.2 ⟨semanticEq_trans (o := place y t q) h1 h', PlaceAttrs.comp.trans _ _ _ h2 k2⟩
      | _ => cases h'
    | _ => cases h
  | place2d x s p =>
    cases b with
    | place2d y t q =>
      cases c with
      | place2d z u r =>
        obtain ⟨h1, h2⟩ := bind_ok_true.1 h
        obtain ⟨k1, k2⟩ := bind_ok_true.1 h'
        exact bind_ok_true.2 ⟨semanticEq_trans (o := place2d y t q) h1 h', Place2dAttrs.comp.trans _ _ _ h2 k2⟩
      | _ => cases h'
    | _ => cases h
  | agent x s =>
    obtain ⟨h1, y, t, rfl, h2⟩ := agent_true h
    obtain ⟨k1, z, u, rfl, k2⟩ := agent_true h'
    have e3 := BaseAttrs.comp.trans _ _ _ h1 k1
    simp only [isEqual]
    rw [if_neg (by simpa [base'] using e3)]
    exact AgentAttrs.eq_trans h2 k2
  | khronos x s o p =>
    cases b with
    | khronos y t o' q =>
      cases c with
      | khronos z u o'' r =>
        obtain ⟨h1, h2⟩ := bind_ok_true.1 h
        obtain ⟨k1, k2⟩ := bind_ok_true.1 h'
        exact bind_ok_true.2 ⟨objectEq_trans (o := khronos y t o' q) h1 h', KhronosAttrs.comp.trans _ _ _ h2 k2⟩
      | _ => cases h'
    | _ => cases h

theorem if_congr' {x y : Bool} {r r' : Res Bool} (h : x = y) (h' : r = r') :
    (if (!x) = true then Res.ok false else r) = if (!y) = true then Res.ok false else r' := by subst h h'; rfl

theorem bind_congr' {m m' : Res Bool} {r r' : Bool} (h : m = m') (h' : r = r') :
    (m >>= fun e => if (!e) = true then Res.ok false else Res.ok r) = m' >>= fun e => if (!e) = true then Res.ok false else Res.ok r' := by
  subst h h'; rfl

theorem semanticEq_symm {k : Bool} {b b' : BaseAttrs} {s s' : SemanticAttrs} {o o' : NodeAttrs} (h : o.semantic? = some s) (h' : o'.semantic? = some s')
    (hb : o.base' = b) (hb' : o'.base' = b') : semanticEq k b s o' = semanticEq k b' s' o := by
  unfold semanticEq
  rw [h, h', hb, hb']
  exact if_congr' (BaseAttrs.comp.symm _ _) (SemanticAttrs.eq_symm k _ _)

theorem objectEq_symm {k : Bool} {b b' : BaseAttrs} {s s' : SemanticAttrs} {x x' : ObjectAttrs} {o o' : NodeAttrs} (h : o.semantic? = some s)
    (h' : o'.semantic? = some s') (hb : o.base' = b) (hb' : o'.base' = b') (hx : o.object? = some x) (hx' : o'.object? = some x') :
    objectEq k b s x o' = objectEq k b' s' x' o := by
  unfold objectEq
  rw [hx, hx']
  exact bind_congr' (semanticEq_symm h h' hb hb') (ObjectAttrs.comp.symm _ _)

theorem isEqual_symm {k : Bool} {a b : NodeAttrs} (h : a.cls = b.cls) : a.isEqual k b = b.isEqual k a := by
  cases a <;> cases b <;> first | cases h | skip
  · exact congrArg Res.ok (BaseAttrs.comp.symm _ _)
  · simp only [isEqual]; apply semanticEq_symm <;> rfl
  · simp only [isEqual]; apply objectEq_symm <;> rfl
  · simp only [isEqual]; apply semanticEq_symm <;> rfl
  · exact bind_congr' (by apply semanticEq_symm <;> rfl) (PlaceAttrs.comp.symm _ _)
  · exact bind_congr' (by apply semanticEq_symm <;> rfl) (Place2dAttrs.comp.symm _ _)
  · exact if_congr' (BaseAttrs.comp.symm _ _) (AgentAttrs.eq_symm k _ _)
  · exact bind_congr' (by apply objectEq_symm <;> rfl) (KhronosAttrs.comp.symm _ _)

end NodeAttrs
end Verif
