import Verif.Spec.Equal
/-! # Comparing attributes -/

namespace Verif

/-- A comparison that is symmetric and transitive, holds of `a` and itself iff `Good a`, and is equality on `Pl`. -/
structure Comp {α : Type} (c : α → α → Bool) (Good Pl : α → Prop) : Prop where
  symm : ∀ a b, c a b = c b a
  trans : ∀ a b d, c a b = true → c b d = true → c a d = true
  self : ∀ a, c a a = true ↔ Good a
  plain : ∀ a b, Pl a → Pl b → (c a b = true ↔ a = b)

theorem F64.comp : Comp F64.eq (fun x => x.isNan = false) F64.Plain where
  symm a b := by simp only [F64.eq, BEq.comm (a := a) (b := b)]; cases F64.isNan a <;> cases F64.isNan b <;> simp [Bool.and_comm]
  trans a b d h1 h2 := by
    simp only [F64.eq, Bool.and_eq_true, Bool.not_eq_true', Bool.or_eq_true, beq_iff_eq] at *
    obtain ⟨⟨ha, hb⟩, h1⟩ := h1
    obtain ⟨⟨_, hd⟩, h2⟩ := h2
    refine ⟨⟨ha, hd⟩, ?_⟩
    rcases h1 with rfl | ⟨h1, h1'⟩
    · exact h2
    · rcases h2 with rfl | ⟨_, h2'⟩
      · exact .inr ⟨h1, h1'⟩
      · exact .inr ⟨h1, h2'⟩
  self a := by simp [F64.eq]
  plain a b ha hb := by
    simp only [F64.eq, Bool.and_eq_true, Bool.not_eq_true', Bool.or_eq_true, beq_iff_eq]
    constructor
    · rintro ⟨_, h | ⟨h1, h2⟩⟩
      · exact h
      · have key : ∀ x : F64, x &&& 0x7FFFFFFFFFFFFFFF = 0 → x ≠ 0x8000000000000000 → x = 0 := by
          intro x h h'
          have e : (x &&& 0x7FFFFFFFFFFFFFFF).toNat = 0 := by rw [h]; rfl
          rw [UInt64.toNat_and] at e
          have e' : x.toNat &&& (2 ^ 63 - 1) = 0 := e
          rw [Nat.and_two_pow_sub_one_eq_mod] at e'
          have hx : x.toNat < 2 ^ 64 := x.toNat_lt
          rw [ne_eq, ← UInt64.toNat_inj] at h'
          have h'' : x.toNat ≠ 2 ^ 63 := h'
          apply UInt64.toNat_inj.1
          show x.toNat = 0
          omega
        rw [key a h1 ha.2, key b h2 hb.2]
    · rintro rfl; exact ⟨⟨ha.1, ha.1⟩, .inl rfl⟩

theorem F32.comp : Comp F32.eq (fun x => x.isNan = false) F32.Plain where
  symm a b := by simp only [F32.eq, BEq.comm (a := a) (b := b)]; cases F32.isNan a <;> cases F32.isNan b <;> simp [Bool.and_comm]
  trans a b d h1 h2 := by
    simp only [F32.eq, Bool.and_eq_true, Bool.not_eq_true', Bool.or_eq_true, beq_iff_eq] at *
    obtain ⟨⟨ha, hb⟩, h1⟩ := h1
    obtain ⟨⟨_, hd⟩, h2⟩ := h2
    refine ⟨⟨ha, hd⟩, ?_⟩
    rcases h1 with rfl | ⟨h1, h1'⟩
    · exact h2
    · rcases h2 with rfl | ⟨_, h2'⟩
      · exact .inr ⟨h1, h1'⟩
      · exact .inr ⟨h1, h2'⟩
  self a := by simp [F32.eq]
  plain a b ha hb := by
    simp only [F32.eq, Bool.and_eq_true, Bool.not_eq_true', Bool.or_eq_true, beq_iff_eq]
    constructor
    · rintro ⟨_, h | ⟨h1, h2⟩⟩
      · exact h
      · have key : ∀ x : F32, x &&& 0x7FFFFFFF = 0 → x ≠ 0x80000000 → x = 0 := by
          intro x h h'
          have e : (x &&& 0x7FFFFFFF).toNat = 0 := by rw [h]; rfl
          rw [UInt32.toNat_and] at e
          have e' : x.toNat &&& (2 ^ 31 - 1) = 0 := e
          rw [Nat.and_two_pow_sub_one_eq_mod] at e'
          have hx : x.toNat < 2 ^ 32 := x.toNat_lt
          rw [ne_eq, ← UInt32.toNat_inj] at h'
          have h'' : x.toNat ≠ 2 ^ 31 := h'
          apply UInt32.toNat_inj.1
          show x.toNat = 0
          omega
        rw [key a h1 ha.2, key b h2 hb.2]
    · rintro rfl; exact ⟨⟨ha.1, ha.1⟩, .inl rfl⟩

theorem F64.compNan : Comp F64.eqNan (fun _ => True) F64.Plain where
  symm a b := by simp only [F64.eqNan, F64.comp.symm a b, Bool.and_comm]
  trans a b d h1 h2 := by
    simp only [F64.eqNan, Bool.or_eq_true, Bool.and_eq_true] at *
    rcases h1 with ⟨h1, h1'⟩ | h1
    · rcases h2 with ⟨_, h2⟩ | h2
      · exact .inl ⟨h1, h2⟩
      · simp [F64.eq, h1'] at h2
    · rcases h2 with ⟨h2, _⟩ | h2
      · simp [F64.eq, h2] at h1
      · exact .inr (F64.comp.trans _ _ _ h1 h2)
  self a := by
    simp only [F64.eqNan, Bool.or_eq_true, Bool.and_eq_true, iff_true, F64.comp.self]
    cases a.isNan <;> simp
  plain a b ha hb := by
    simp only [F64.eqNan, ha.1, Bool.false_and, Bool.false_or]
    exact F64.comp.plain a b ha hb

theorem beqComp {α : Type} [DecidableEq α] : Comp (fun a b : α => a == b) (fun _ => True) (fun _ => True) where
  symm a b := by simp only [BEq.comm]
  trans a b d h1 h2 := by simp_all
  self a := by simp
  plain a b _ _ := by simp

theorem Comp.list {α : Type} {c : α → α → Bool} {G P : α → Prop} (h : Comp c G P) :
    Comp (listEq c) (fun l => ∀ x ∈ l, G x) (fun l => ∀ x ∈ l, P x) where
  symm a := by
    induction a with
    | nil => intro b; cases b <;> rfl
    | cons x a ih => intro b; cases b with
      | nil => rfl
      | cons y b => simp only [listEq, h.symm x y, ih b]
  trans a := by
    induction a with
    | nil => intro b d h1 h2; cases b <;> cases d <;> simp_all [listEq]
    | cons x a ih =>
      intro b d h1 h2
      cases b with
      | nil => simp [listEq] at h1
      | cons y b => cases d with
        | nil => simp [listEq] at h2
        | cons z d =>
          simp only [listEq, Bool.and_eq_true] at *
          exact ⟨h.trans _ _ _ h1.1 h2.1, ih _ _ h1.2 h2.2⟩
  self a := by
    induction a with
    | nil => simp [listEq]
    | cons x a ih => simp only [listEq, Bool.and_eq_true, h.self, ih, List.forall_mem_cons]
  plain a := by
    induction a with
    | nil => intro b _ _; cases b <;> simp [listEq]
    | cons x a ih =>
      intro b ha hb
      cases b with
      | nil => simp [listEq]
      | cons y b =>
        simp only [listEq, Bool.and_eq_true, List.cons.injEq]
        rw [List.forall_mem_cons] at ha hb
        rw [h.plain x y ha.1 hb.1, ih b ha.2 hb.2]

theorem Comp.weaken {α : Type} {c : α → α → Bool} {G G' P P' : α → Prop} (h : Comp c G P) (hG : ∀ a, G a ↔ G' a) (hP : ∀ a, P' a → P a) :
    Comp c G' P' :=
  ⟨h.symm, h.trans, fun a => (h.self a).trans (hG a), fun a b ha hb => h.plain a b (hP a ha) (hP b hb)⟩

/-- no NaN among the numbers -/
abbrev NN64 (l : List F64) : Prop := ∀ x ∈ l, x.isNan = false
abbrev NN32 (l : List F32) : Prop := ∀ x ∈ l, x.isNan = false
abbrev PL64 (l : List F64) : Prop := ∀ x ∈ l, x.Plain
abbrev PL32 (l : List F32) : Prop := ∀ x ∈ l, x.Plain

theorem V3d.comp : Comp V3d.eq (fun a => NN64 a.nums) (fun a => PL64 a.nums) where
  symm a b := by simp only [V3d.eq, F64.comp.symm b.x, F64.comp.symm b.y, F64.comp.symm b.z]
  trans a b d := by
    simp only [V3d.eq, Bool.and_eq_true]
    rintro ⟨⟨h1, h2⟩, h3⟩ ⟨⟨k1, k2⟩, k3⟩
    exact ⟨⟨F64.comp.trans _ _ _ h1 k1, F64.comp.trans _ _ _ h2 k2⟩, F64.comp.trans _ _ _ h3 k3⟩
  self a := by simp [V3d.eq, F64.comp.self, V3d.nums, NN64, and_assoc]
  plain a b ha hb := by
    obtain ⟨x, y, z⟩ := a
    obtain ⟨x', y', z'⟩ := b
    simp only [PL64, V3d.nums, List.forall_mem_cons, List.not_mem_nil, false_implies, implies_true, and_true] at ha hb
    simp only [V3d.eq, Bool.and_eq_true, V3d.mk.injEq, F64.comp.plain _ _ ha.1 hb.1, F64.comp.plain _ _ ha.2.1 hb.2.1,
      F64.comp.plain _ _ ha.2.2 hb.2.2, and_assoc]

theorem V3f.comp : Comp V3f.eq (fun a => NN32 a.nums) (fun a => PL32 a.nums) where
  symm a b := by simp only [V3f.eq, F32.comp.symm b.x, F32.comp.symm b.y, F32.comp.symm b.z]
  trans a b d := by
    simp only [V3f.eq, Bool.and_eq_true]
    rintro ⟨⟨h1, h2⟩, h3⟩ ⟨⟨k1, k2⟩, k3⟩
    exact ⟨⟨F32.comp.trans _ _ _ h1 k1, F32.comp.trans _ _ _ h2 k2⟩, F32.comp.trans _ _ _ h3 k3⟩
  self a := by simp [V3f.eq, F32.comp.self, V3f.nums, NN32, and_assoc]
  plain a b ha hb := by
    obtain ⟨x, y, z⟩ := a
    obtain ⟨x', y', z'⟩ := b
    simp only [PL32, V3f.nums, List.forall_mem_cons, List.not_mem_nil, false_implies, implies_true, and_true] at ha hb
    simp only [V3f.eq, Bool.and_eq_true, V3f.mk.injEq, F32.comp.plain _ _ ha.1 hb.1, F32.comp.plain _ _ ha.2.1 hb.2.1,
      F32.comp.plain _ _ ha.2.2 hb.2.2, and_assoc]

theorem Quat.comp : Comp Quat.eq (fun a => NN64 a.nums) (fun a => PL64 a.nums) where
  symm a b := by simp only [Quat.eq, F64.comp.symm b.w, F64.comp.symm b.x, F64.comp.symm b.y, F64.comp.symm b.z]
  trans a b d := by
    simp only [Quat.eq, Bool.and_eq_true]
    rintro ⟨⟨⟨h0, h1⟩, h2⟩, h3⟩ ⟨⟨⟨k0, k1⟩, k2⟩, k3⟩
    exact ⟨⟨⟨F64.comp.trans _ _ _ h0 k0, F64.comp.trans _ _ _ h1 k1⟩, F64.comp.trans _ _ _ h2 k2⟩, F64.comp.trans _ _ _ h3 k3⟩
  self a := by simp [Quat.eq, F64.comp.self, Quat.nums, NN64, and_assoc]
  plain a b ha hb := by
    obtain ⟨w, x, y, z⟩ := a
    obtain ⟨w', x', y', z'⟩ := b
    simp only [PL64, Quat.nums, List.forall_mem_cons, List.not_mem_nil, false_implies, implies_true, and_true] at ha hb
    simp only [Quat.eq, Bool.and_eq_true, Quat.mk.injEq, F64.comp.plain _ _ ha.1 hb.1, F64.comp.plain _ _ ha.2.1 hb.2.1,
      F64.comp.plain _ _ ha.2.2.1 hb.2.2.1, F64.comp.plain _ _ ha.2.2.2 hb.2.2.2, and_assoc]

theorem NearestVertexInfo.comp : Comp NearestVertexInfo.eq (fun a => NN64 a.nums) (fun a => PL64 a.nums) where
  symm a b := by
    simp only [NearestVertexInfo.eq, F64.comp.symm b.voxelPos.1, F64.comp.symm b.voxelPos.2.1, F64.comp.symm b.voxelPos.2.2,
      BEq.comm (a := b.block), BEq.comm (a := b.vertex), BEq.comm (a := b.label)]
  trans a b d := by
    simp only [NearestVertexInfo.eq, Bool.and_eq_true, beq_iff_eq]
    rintro ⟨⟨⟨h0, ⟨h1, h2⟩, h3⟩, h4⟩, h5⟩ ⟨⟨⟨k0, ⟨k1, k2⟩, k3⟩, k4⟩, k5⟩
    exact ⟨⟨⟨h0.trans k0, ⟨F64.comp.trans _ _ _ h1 k1, F64.comp.trans _ _ _ h2 k2⟩, F64.comp.trans _ _ _ h3 k3⟩, h4.trans k4⟩, h5.trans k5⟩
  self a := by simp [NearestVertexInfo.eq, F64.comp.self, NearestVertexInfo.nums, NN64, and_assoc]
  plain a b ha hb := by
    obtain ⟨bl, ⟨x, y, z⟩, v, l⟩ := a
    obtain ⟨bl', ⟨x', y', z'⟩, v', l'⟩ := b
    simp only [PL64, NearestVertexInfo.nums, List.forall_mem_cons, List.not_mem_nil, false_implies, implies_true, and_true] at ha hb
    simp only [NearestVertexInfo.eq, Bool.and_eq_true, beq_iff_eq, NearestVertexInfo.mk.injEq, Prod.mk.injEq, F64.comp.plain _ _ ha.1 hb.1,
      F64.comp.plain _ _ ha.2.1 hb.2.1, F64.comp.plain _ _ ha.2.2 hb.2.2, and_assoc]

theorem EdgeAttrs.comp : Comp EdgeAttrs.eq (fun a => a.weight.isNan = false) (fun a => a.weight.Plain) where
  symm a b := by simp only [EdgeAttrs.eq, F64.comp.symm b.weight, BEq.comm (a := b.weighted)]
  trans a b d := by
    simp only [EdgeAttrs.eq, Bool.and_eq_true, beq_iff_eq]
    rintro ⟨h1, h2⟩ ⟨k1, k2⟩
    exact ⟨h1.trans k1, F64.comp.trans _ _ _ h2 k2⟩
  self a := by simp [EdgeAttrs.eq, F64.comp.self]
  plain a b ha hb := by
    obtain ⟨w, x⟩ := a
    obtain ⟨w', x'⟩ := b
    simp only [EdgeAttrs.eq, Bool.and_eq_true, beq_iff_eq, EdgeAttrs.mk.injEq, F64.comp.plain _ _ ha hb]

/-! ## Records -/

/-- numbers compared bit for bit -/
theorem and_congr' {a b c d : Bool} (h : a = c) (h' : b = d) : (a && b) = (c && d) := by rw [h, h']

theorem forall_flatMap {α β : Type} {l : List α} {f : α → List β} {P : β → Prop} : (∀ x ∈ l.flatMap f, P x) ↔ ∀ a ∈ l, ∀ x ∈ f a, P x := by
  simp only [List.mem_flatMap, forall_exists_index, and_imp]
  exact ⟨fun h a ha x hx => h x a ha hx, fun h x a ha hx => h a ha x hx⟩

theorem forall_append {α : Type} {l m : List α} {P : α → Prop} : (∀ x ∈ l ++ m, P x) ↔ (∀ x ∈ l, P x) ∧ ∀ x ∈ m, P x := by
  simp only [List.mem_append]
  exact ⟨fun h => ⟨fun x hx => h x (.inl hx), fun x hx => h x (.inr hx)⟩, fun h x hx => hx.elim (h.1 x) (h.2 x)⟩

theorem BaseAttrs.comp : Comp BaseAttrs.eq (fun _ => True) (fun a => PL64 a.position.nums) where
  symm a b := by
    simp only [BaseAttrs.eq, F64.compNan.symm b.position.x, F64.compNan.symm b.position.y, F64.compNan.symm b.position.z,
      BEq.comm (a := b.lastUpdate), BEq.comm (a := b.isActive), BEq.comm (a := b.isPredicted)]
  trans a b d := by
    simp only [BaseAttrs.eq, Bool.and_eq_true, beq_iff_eq]
    rintro ⟨⟨⟨⟨⟨h1, h2⟩, h3⟩, h4⟩, h5⟩, h6⟩ ⟨⟨⟨⟨⟨k1, k2⟩, k3⟩, k4⟩, k5⟩, k6⟩
    exact ⟨⟨⟨⟨⟨F64.compNan.trans _ _ _ h1 k1, F64.compNan.trans _ _ _ h2 k2⟩, F64.compNan.trans _ _ _ h3 k3⟩, h4.trans k4⟩, h5.trans k5⟩, h6.trans k6⟩
  self a := by simp [BaseAttrs.eq, (F64.compNan.self _).2 trivial]
  plain a b ha hb := by
    obtain ⟨⟨x, y, z⟩, u, i, p⟩ := a
    obtain ⟨⟨x', y', z'⟩, u', i', p'⟩ := b
    simp only [PL64, V3d.nums, List.forall_mem_cons, List.not_mem_nil, false_implies, implies_true, and_true] at ha hb
    simp only [BaseAttrs.eq, Bool.and_eq_true, beq_iff_eq, BaseAttrs.mk.injEq, V3d.mk.injEq, F64.compNan.plain _ _ ha.1 hb.1,
      F64.compNan.plain _ _ ha.2.1 hb.2.1, F64.compNan.plain _ _ ha.2.2 hb.2.2, and_assoc]

theorem ObjectAttrs.comp : Comp ObjectAttrs.eq (fun a => NN64 a.worldRObject.nums) (fun a => PL64 a.worldRObject.nums) where
  symm a b := by
    simp only [ObjectAttrs.eq, Quat.comp.symm b.worldRObject, BEq.comm (a := b.meshConnections), BEq.comm (a := b.registered)]
  trans a b d := by
    simp only [ObjectAttrs.eq, Bool.and_eq_true, beq_iff_eq]
    rintro ⟨⟨h1, h2⟩, h3⟩ ⟨⟨k1, k2⟩, k3⟩
    exact ⟨⟨h1.trans k1, h2.trans k2⟩, Quat.comp.trans _ _ _ h3 k3⟩
  self a := by simp [ObjectAttrs.eq, Quat.comp.self]
  plain a b ha hb := by
    obtain ⟨m, r, q⟩ := a
    obtain ⟨m', r', q'⟩ := b
    simp only [ObjectAttrs.eq, Bool.and_eq_true, beq_iff_eq, ObjectAttrs.mk.injEq, Quat.comp.plain _ _ ha hb, and_assoc]

theorem nvis : Comp (listEq NearestVertexInfo.eq) (fun l => NN64 (l.flatMap (·.nums))) (fun l => PL64 (l.flatMap (·.nums))) :=
  NearestVertexInfo.comp.list.weaken (fun _ => forall_flatMap.symm) (fun _ => forall_flatMap.1)
theorem v3ds : Comp (listEq V3d.eq) (fun l => NN64 (l.flatMap (·.nums))) (fun l => PL64 (l.flatMap (·.nums))) :=
  V3d.comp.list.weaken (fun _ => forall_flatMap.symm) (fun _ => forall_flatMap.1)
theorem v3fs : Comp (listEq V3f.eq) (fun l => NN32 (l.flatMap (·.nums))) (fun l => PL32 (l.flatMap (·.nums))) :=
  V3f.comp.list.weaken (fun _ => forall_flatMap.symm) (fun _ => forall_flatMap.1)
theorem v3fss : Comp (listEq (listEq V3f.eq)) (fun l => NN32 (l.flatMap (·.flatMap (·.nums)))) (fun l => PL32 (l.flatMap (·.flatMap (·.nums)))) :=
  v3fs.list.weaken (fun _ => forall_flatMap.symm) (fun _ => forall_flatMap.1)

theorem PlaceAttrs.comp : Comp PlaceAttrs.eq (fun a => NN64 a.nums) (fun a => PL64 a.nums) where
  symm a b := by
    simp only [PlaceAttrs.eq, F64.comp.symm b.distance, nvis.symm b.voxblox, V3d.comp.symm b.frontierScale, Quat.comp.symm b.orientation,
      BEq.comm (a := b.numBasisPoints), BEq.comm (a := b.pcl), BEq.comm (a := b.labels), BEq.comm (a := b.deformation),
      BEq.comm (a := b.realPlace), BEq.comm (a := b.activeFrontier), BEq.comm (a := b.needCleanup), BEq.comm (a := b.numFrontierVoxels)]
  trans a b d := by
    simp only [PlaceAttrs.eq, Bool.and_eq_true, beq_iff_eq]
    rintro ⟨⟨⟨⟨⟨⟨⟨⟨⟨⟨⟨h1, h2⟩, h3⟩, h4⟩, h5⟩, h6⟩, h7⟩, h8⟩, h9⟩, h10⟩, h11⟩, h12⟩ ⟨⟨⟨⟨⟨⟨⟨⟨⟨⟨⟨k1, k2⟩, k3⟩, k4⟩, k5⟩, k6⟩, k7⟩, k8⟩, k9⟩, k10⟩, k11⟩, k12⟩
    exact ⟨⟨⟨⟨⟨⟨⟨⟨⟨⟨⟨F64.comp.trans _ _ _ h1 k1, h2.trans k2⟩, nvis.trans _ _ _ h3 k3⟩, h4.trans k4⟩, h5.trans k5⟩, h6.trans k6⟩, h7.trans k7⟩,
      h8.trans k8⟩, V3d.comp.trans _ _ _ h9 k9⟩, Quat.comp.trans _ _ _ h10 k10⟩, h11.trans k11⟩, h12.trans k12⟩
  self a := by
    simp only [PlaceAttrs.eq, Bool.and_eq_true, beq_self_eq_true, and_true, F64.comp.self, nvis.self, V3d.comp.self, Quat.comp.self,
      PlaceAttrs.nums, NN64, forall_append]
    simp
  plain a b ha hb := by
    obtain ⟨a1, a2, a3, a4, a5, a6, a7, a8, a9, a10, a11, a12⟩ := a
    obtain ⟨b1, b2, b3, b4, b5, b6, b7, b8, b9, b10, b11, b12⟩ := b
    simp only [PL64, PlaceAttrs.nums, forall_append] at ha hb
    simp only [PlaceAttrs.eq, Bool.and_eq_true, beq_iff_eq, PlaceAttrs.mk.injEq, F64.comp.plain a1 b1 (ha.1.1.1 _ (List.mem_singleton.2 rfl)) (hb.1.1.1 _ (List.mem_singleton.2 rfl)),
      nvis.plain _ _ ha.1.1.2 hb.1.1.2, V3d.comp.plain _ _ ha.1.2 hb.1.2, Quat.comp.plain _ _ ha.2 hb.2]
    constructor
    · rintro ⟨⟨⟨⟨⟨⟨⟨⟨⟨⟨⟨h1, h2⟩, h3⟩, h4⟩, h5⟩, h6⟩, h7⟩, h8⟩, h9⟩, h10⟩, h11⟩, h12⟩
      exact ⟨h1, h2, h3, h4, h5, h6, h7, h11, h8, h9, h10, h12⟩
    · rintro ⟨h1, h2, h3, h4, h5, h6, h7, h11, h8, h9, h10, h12⟩
      exact ⟨⟨⟨⟨⟨⟨⟨⟨⟨⟨⟨h1, h2⟩, h3⟩, h4⟩, h5⟩, h6⟩, h7⟩, h8⟩, h9⟩, h10⟩, h11⟩, h12⟩

theorem Matrix.eqFixed_comp64 : Comp (Matrix.eqFixed F64.eq) (fun m => NN64 m.data) (fun _ => False) where
  symm a b := F64.comp.list.symm _ _
  trans a b d := F64.comp.list.trans _ _ _
  self a := F64.comp.list.self _
  plain a b ha _ := ha.elim
theorem Matrix.eqFixed_comp32 : Comp (Matrix.eqFixed F32.eq) (fun m => NN32 m.data) (fun _ => False) where
  symm a b := F32.comp.list.symm _ _
  trans a b d := F32.comp.list.trans _ _ _
  self a := F32.comp.list.self _
  plain a b ha _ := ha.elim

theorem Matrix.eqFixed_plain {α : Type} {c : α → α → Bool} {G P : α → Prop} (h : Comp c G P) {r k : Int} {a b : Matrix α} (ha : a.Sized r k)
    (hb : b.Sized r k) (pa : ∀ x ∈ a.data, P x) (pb : ∀ x ∈ b.data, P x) : Matrix.eqFixed c a b = true ↔ a = b := by
  obtain ⟨r1, c1, d1⟩ := a
  obtain ⟨r2, c2, d2⟩ := b
  obtain ⟨ra, ca, _⟩ := ha
  obtain ⟨rb, cb, _⟩ := hb
  dsimp only at ra ca rb cb
  simp only [Matrix.eqFixed, h.list.plain _ _ pa pb, Matrix.mk.injEq, ra, rb, ca, cb, true_and]

theorem Place2dAttrs.comp : Comp Place2dAttrs.eq (fun a => NN64 a.nums) (fun _ => False) where
  symm a b := by
    simp only [Place2dAttrs.eq, v3ds.symm b.boundary, V3d.comp.symm b.ellipseCentroid, Matrix.eqFixed_comp64.symm b.compress,
      Matrix.eqFixed_comp64.symm b.expand, nvis.symm b.voxblox,
      BEq.comm (a := b.pclBoundary), BEq.comm (a := b.pcl), BEq.comm (a := b.labels), BEq.comm (a := b.deformation),
      BEq.comm (a := b.needCleanupSplitting), BEq.comm (a := b.hasActiveMeshIndices)]
  trans a b d := by
    simp only [Place2dAttrs.eq, Bool.and_eq_true, beq_iff_eq]
    rintro ⟨⟨⟨⟨⟨⟨⟨⟨⟨⟨h1, h2⟩, h3⟩, h4⟩, h5⟩, h6⟩, h7⟩, h8⟩, h9⟩, h10⟩, h11⟩ ⟨⟨⟨⟨⟨⟨⟨⟨⟨⟨k1, k2⟩, k3⟩, k4⟩, k5⟩, k6⟩, k7⟩, k8⟩, k9⟩, k10⟩, k11⟩
    exact ⟨⟨⟨⟨⟨⟨⟨⟨⟨⟨v3ds.trans _ _ _ h1 k1, V3d.comp.trans _ _ _ h2 k2⟩, Matrix.eqFixed_comp64.trans _ _ _ h3 k3⟩, Matrix.eqFixed_comp64.trans _ _ _ h4 k4⟩,
      h5.trans k5⟩, nvis.trans _ _ _ h6 k6⟩, h7.trans k7⟩, h8.trans k8⟩, h9.trans k9⟩, h10.trans k10⟩, h11.trans k11⟩
  self a := by
    simp only [Place2dAttrs.eq, Bool.and_eq_true, beq_self_eq_true, and_true, v3ds.self, nvis.self, V3d.comp.self, Matrix.eqFixed_comp64.self,
      Place2dAttrs.nums, NN64, forall_append]
  plain a b ha _ := ha.elim

/-- what `Place2dAttrs.eq` ignores -/
def Place2dAttrs.forget (p : Place2dAttrs) : Place2dAttrs := { p with pclMin := 0, pclMax := 0, needFinishMerge := false }

theorem Place2dAttrs.eq_plain {a b : Place2dAttrs} (ta : a.Typed) (tb : b.Typed) (ha : PL64 a.nums) (hb : PL64 b.nums) :
    Place2dAttrs.eq a b = true ↔ a.forget = b.forget := by
  simp only [PL64, Place2dAttrs.nums, forall_append] at ha hb
  simp only [Place2dAttrs.eq, Bool.and_eq_true, beq_iff_eq, v3ds.plain _ _ ha.1.1.1.1 hb.1.1.1.1, V3d.comp.plain _ _ ha.1.1.1.2 hb.1.1.1.2,
    Matrix.eqFixed_plain F64.comp ta.1 tb.1 ha.1.1.2 hb.1.1.2, Matrix.eqFixed_plain F64.comp ta.2 tb.2 ha.1.2 hb.1.2, nvis.plain _ _ ha.2 hb.2,
    Place2dAttrs.forget, Place2dAttrs.mk.injEq, true_and, and_assoc]

theorem Mesh.comp : Comp Mesh.eq (fun a => NN32 (a.points.flatMap (·.nums))) (fun a => PL32 (a.points.flatMap (·.nums))) where
  symm a b := by
    simp only [Mesh.eq, v3fs.symm b.points, BEq.comm (a := b.hasColors), BEq.comm (a := b.hasTimestamps), BEq.comm (a := b.hasLabels),
      BEq.comm (a := b.hasFirstSeen), BEq.comm (a := b.colors), BEq.comm (a := b.stamps), BEq.comm (a := b.firstSeen), BEq.comm (a := b.labels),
      BEq.comm (a := b.faces)]
  trans a b d := by
    simp only [Mesh.eq, Bool.and_eq_true, beq_iff_eq]
    rintro ⟨⟨⟨⟨⟨⟨⟨⟨⟨h1, h2⟩, h3⟩, h4⟩, h5⟩, h6⟩, h7⟩, h8⟩, h9⟩, h10⟩ ⟨⟨⟨⟨⟨⟨⟨⟨⟨k1, k2⟩, k3⟩, k4⟩, k5⟩, k6⟩, k7⟩, k8⟩, k9⟩, k10⟩
    exact ⟨⟨⟨⟨⟨⟨⟨⟨⟨h1.trans k1, h2.trans k2⟩, h3.trans k3⟩, h4.trans k4⟩, v3fs.trans _ _ _ h5 k5⟩, h6.trans k6⟩, h7.trans k7⟩, h8.trans k8⟩,
      h9.trans k9⟩, h10.trans k10⟩
  self a := by simp only [Mesh.eq, Bool.and_eq_true, beq_self_eq_true, and_true, true_and, v3fs.self]
  plain a b ha hb := by
    obtain ⟨a1, a2, a3, a4, a5, a6, a7, a8, a9, a10⟩ := a
    obtain ⟨b1, b2, b3, b4, b5, b6, b7, b8, b9, b10⟩ := b
    simp only [Mesh.eq, Bool.and_eq_true, beq_iff_eq, v3fs.plain _ _ ha hb, Mesh.mk.injEq, and_assoc]

/-- what `KhronosAttrs.eq` ignores -/
def KhronosAttrs.forget (k : KhronosAttrs) : KhronosAttrs := { k with trajectoryTimestamps := [] }

theorem KhronosAttrs.comp : Comp KhronosAttrs.eq (fun a => NN32 a.nums) (fun _ => False) where
  symm a b := by
    simp only [KhronosAttrs.eq, Mesh.comp.symm b.mesh, v3fs.symm b.trajectoryPositions, v3fss.symm b.dynamicPoints,
      BEq.comm (a := b.firstObserved), BEq.comm (a := b.lastObserved), eq_comm (a := b.details)]
  trans a b d := by
    simp only [KhronosAttrs.eq, Bool.and_eq_true, beq_iff_eq, decide_eq_true_eq]
    rintro ⟨⟨⟨⟨⟨h1, h2⟩, h3⟩, h4⟩, h5⟩, h6⟩ ⟨⟨⟨⟨⟨k1, k2⟩, k3⟩, k4⟩, k5⟩, k6⟩
    exact ⟨⟨⟨⟨⟨h1.trans k1, h2.trans k2⟩, Mesh.comp.trans _ _ _ h3 k3⟩, v3fs.trans _ _ _ h4 k4⟩, v3fss.trans _ _ _ h5 k5⟩, h6.trans k6⟩
  self a := by
    simp only [KhronosAttrs.eq, Bool.and_eq_true, beq_self_eq_true, and_true, true_and, decide_true, v3fs.self, v3fss.self, Mesh.comp.self,
      KhronosAttrs.nums, NN32, forall_append]
  plain a b ha _ := ha.elim

theorem KhronosAttrs.eq_plain {a b : KhronosAttrs} (ha : PL32 a.nums) (hb : PL32 b.nums) : KhronosAttrs.eq a b = true ↔ a.forget = b.forget := by
  simp only [PL32, KhronosAttrs.nums, forall_append] at ha hb
  simp only [KhronosAttrs.eq, Bool.and_eq_true, beq_iff_eq, decide_eq_true_eq, Mesh.comp.plain _ _ ha.1.1 hb.1.1, v3fs.plain _ _ ha.1.2 hb.1.2,
    v3fss.plain _ _ ha.2 hb.2, KhronosAttrs.forget, KhronosAttrs.mk.injEq, true_and, and_assoc]

theorem one_ne : ¬((1 : UInt32) = 0) := by decide

theorem BBox.comp : Comp BBox.eq (fun a => NN32 a.nums) (fun _ => False) where
  symm a b := by
    unfold BBox.eq
    by_cases h : a.type = b.type
    · simp only [h, bne_self_eq_false, V3f.comp.symm b.dims, V3f.comp.symm b.center, Matrix.eqFixed_comp32.symm b.rot]
    · simp [h, Ne.symm h]
  trans a b d := by
    unfold BBox.eq
    by_cases h : a.type = b.type
    · by_cases h' : b.type = d.type
      · simp only [h, h', bne_self_eq_false, Bool.false_eq_true, if_false]
        by_cases h0 : d.type = 0
        · simp [h0]
        · by_cases h1 : d.type = 1
          · simp only [h1, beq_iff_eq, if_true, one_ne, if_false, Bool.or_eq_true, Bool.not_eq_true', ite_eq_right_iff, ite_eq_left_iff]
            cases e1 : a.dims.eq b.dims <;> cases e2 : a.center.eq b.center <;> cases e3 : b.dims.eq d.dims <;> cases e4 : b.center.eq d.center <;>
              simp
            exact ⟨V3f.comp.trans _ _ _ e1 e3, V3f.comp.trans _ _ _ e2 e4⟩
          · simp only [h0, h1, beq_iff_eq, if_false, Bool.or_eq_true, Bool.not_eq_true']
            cases e1 : a.dims.eq b.dims <;> cases e2 : a.center.eq b.center <;> cases e3 : b.dims.eq d.dims <;> cases e4 : b.center.eq d.center <;>
              simp
            intro k1 k2
            exact ⟨⟨V3f.comp.trans _ _ _ e1 e3, V3f.comp.trans _ _ _ e2 e4⟩, Matrix.eqFixed_comp32.trans _ _ _ k1 k2⟩
      · simp [h']
    · simp [h]
  self a := by
    unfold BBox.eq BBox.nums
    by_cases h0 : a.type = 0
    · simp [h0, NN32]
    · by_cases h1 : a.type = 1
      · simp only [bne_self_eq_false, Bool.false_eq_true, if_false, h0, h1, beq_iff_eq, if_true, one_ne, NN32, forall_append,
          ← V3f.comp.self]
        cases a.dims.eq a.dims <;> cases a.center.eq a.center <;> simp
      · simp only [bne_self_eq_false, Bool.false_eq_true, if_false, h0, h1, beq_iff_eq, NN32, forall_append, ← V3f.comp.self,
          ← Matrix.eqFixed_comp32.self]
        cases a.dims.eq a.dims <;> cases a.center.eq a.center <;> simp
  plain a b ha _ := ha.elim

theorem BBox.eq_plain {a b : BBox} (ta : a.rot.Sized 3 3) (tb : b.rot.Sized 3 3) (ha : PL32 a.nums) (hb : PL32 b.nums) :
    BBox.eq a b = true ↔ a.forget = b.forget := by
  obtain ⟨t, d, c, r⟩ := a
  obtain ⟨t', d', c', r'⟩ := b
  unfold BBox.eq BBox.forget
  unfold BBox.nums at ha hb
  dsimp only at ta tb ha hb ⊢
  by_cases h : t = t'
  · subst h
    simp only [bne_self_eq_false, Bool.false_eq_true, if_false]
    by_cases h0 : t = 0
    · simp [h0]
    · by_cases h1 : t = 1
      · subst h1
        simp only [one_ne, if_false, if_true, PL32, forall_append] at ha hb
        have e1 := V3f.comp.plain _ _ ha.1 hb.1
        have e2 := V3f.comp.plain _ _ ha.2 hb.2
        simp only [beq_iff_eq, one_ne, if_false, if_true, BBox.mk.injEq, true_and, and_true, ← e1, ← e2]
        cases d.eq d' <;> cases c.eq c' <;> simp
      · simp only [h0, h1, if_false, PL32, forall_append] at ha hb
        have e1 := V3f.comp.plain _ _ ha.1.1 hb.1.1
        have e2 := V3f.comp.plain _ _ ha.1.2 hb.1.2
        have e3 := Matrix.eqFixed_plain F32.comp ta tb ha.2 hb.2
        simp only [beq_iff_eq, h0, h1, if_false, BBox.mk.injEq, true_and, ← e1, ← e2, ← e3]
        cases d.eq d' <;> cases c.eq c' <;> simp
  · have hn : (t != t') = true := by simpa using h
    simp only [hn, if_true, Bool.false_eq_true, false_iff]
    intro e
    apply h
    have key : ∀ (t : UInt32) (d c : V3f) (r : Matrix F32), (if t = 0 then ({} : BBox) else if t = 1 then { type := t, dims := d, center := c } else ⟨t, d, c, r⟩).type = t := by
      intro t d c r
      split
      · next h => exact h.symm
      · split <;> rfl
    rw [← key t d c r, ← key t' d' c' r']
    exact congrArg BBox.type e

end Verif
