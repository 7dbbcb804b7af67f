import Verif.Lemmas.Binary
import Verif.Lemmas.Writer
import Verif.Spec.Codec
import Verif.Spec.Writable
/-! # When the writers succeed -/

namespace Verif
namespace Wr

theorem forall_and_mem {α : Type} {l : List α} {p q : α → Prop} : (∀ a ∈ l, p a ∧ q a) ↔ (∀ a ∈ l, p a) ∧ ∀ a ∈ l, q a :=
  ⟨fun h => ⟨fun a ha => (h a ha).1, fun a ha => (h a ha).2⟩, fun h a ha => ⟨h.1 a ha, h.2 a ha⟩⟩

/-- The writer succeeds under the condition, and throws otherwise. -/
def When (w : Wr) (p : Prop) : Prop := (p → ∃ bs, w = .ok bs) ∧ (¬ p → w = .throw .domainError)

theorem When.iff {w : Wr} {p q : Prop} (h : When w p) (hpq : p ↔ q) : When w q := by rw [When, ← hpq]; exact h
theorem When.of_ok {w : Wr} {bs : List UInt8} (h : w = .ok bs) : When w True := ⟨fun _ => ⟨bs, h⟩, fun n => absurd trivial n⟩
theorem When.seq {a b : Wr} {p q : Prop} (ha : When a p) (hb : When b q) : When (Wr.seq a b) (p ∧ q) := by
  by_cases hp : p
  · obtain ⟨x, hx⟩ := ha.1 hp
    subst hx
    by_cases hq : q
    · obtain ⟨y, hy⟩ := hb.1 hq
      subst hy
      exact ⟨fun _ => ⟨x ++ y, rfl⟩, fun n => absurd ⟨hp, hq⟩ n⟩
    · rw [hb.2 hq]
      exact ⟨fun h => absurd h.2 hq, fun _ => rfl⟩
  · rw [ha.2 hp]
    exact ⟨fun h => absurd h.1 hp, fun _ => rfl⟩
/-- what precedes a value of fixed size -/
theorem When.pre {a b : Wr} {q : Prop} {bs : List UInt8} (ha : a = .ok bs) (hb : When b q) : When (Wr.seq a b) q :=
  ((When.of_ok ha).seq hb).iff (by simp)
/-- what follows -/
theorem When.post {a b : Wr} {p : Prop} {bs : List UInt8} (ha : When a p) (hb : b = .ok bs) : When (Wr.seq a b) p :=
  (ha.seq (When.of_ok hb)).iff (by simp)
theorem When.all {α : Type} {f : α → Wr} {p : α → Prop} {l : List α} (h : ∀ a ∈ l, When (f a) (p a)) : When (Wr.all f l) (∀ a ∈ l, p a) := by
  induction l with
  | nil => exact (When.of_ok (bs := []) rfl).iff (by simp)
  | cons a l ih =>
    exact ((h a List.mem_cons_self).seq (ih fun x hx => h x (List.mem_cons_of_mem _ hx))).iff (by simp)
theorem When.len (n : Nat) : When (arrLen n) (n < 2 ^ 32) := by
  unfold arrLen
  by_cases h : n > 0xFFFFFFFF
  · rw [if_pos h]; exact ⟨fun x => absurd x (by omega), fun _ => rfl⟩
  · rw [if_neg h]; exact ⟨fun _ => ⟨_, rfl⟩, fun x => absurd (show n < 2 ^ 32 by omega) x⟩
theorem When.str (s : Str) : When (str s) (s.length < 2 ^ 32) := (When.len _).post rfl
theorem When.vecp {α : Type} {f : α → Wr} {p : α → Prop} (l : List α) (h : ∀ a ∈ l, When (f a) (p a)) :
    When (vec f l) (l.length < 2 ^ 32 ∧ ∀ a ∈ l, p a) := (When.len _).seq (When.all h)
theorem When.vec {α : Type} {f : α → Wr} (l : List α) (h : ∀ a, ∃ bs, f a = .ok bs) : When (vec f l) (l.length < 2 ^ 32) :=
  (When.vecp (p := fun _ => True) l (fun a _ => by obtain ⟨bs, hb⟩ := h a; exact .of_ok hb)).iff (by simp)
theorem When.matrix {α : Type} {f : α → Wr} (m : Matrix α) (h : ∀ a, ∃ bs, f a = .ok bs) : When (matrix f m) (m.values < 2 ^ 32) := by
  refine ((When.len _).seq (When.pre rfl (When.pre rfl (When.all (p := fun _ => True) fun a _ => ?_)))).iff ?_
  · obtain ⟨bs, hb⟩ := h a; exact .of_ok hb
  · simp [Matrix.values]
theorem When.quat {q : Quat} : ∃ bs, quat q = .ok bs := ⟨_, rfl⟩
theorem When.nvi (x : NearestVertexInfo) : ∃ bs, nvi x = .ok bs := by
  have : ∃ bs, opt u32 x.label = .ok bs := by cases x.label <;> exact ⟨_, rfl⟩
  obtain ⟨bs, hb⟩ := this
  unfold Wr.nvi
  rw [hb]
  exact ⟨_, rfl⟩
theorem When.sized {α : Type} {f : α → Wr} {m : Matrix α} {r c : Int} (hs : m.Sized r c) (hb : (r * c + 2).toNat < 2 ^ 32) (h : ∀ a, ∃ bs, f a = .ok bs) :
    ∃ bs, Wr.matrix f m = .ok bs := by
  refine (When.matrix m h).1 ?_
  obtain ⟨h1, h2, _⟩ := hs
  rw [Matrix.values, h1, h2]
  exact hb
theorem When.bbox {b : BBox} (h : b.rot.Sized 3 3) : ∃ bs, bbox b = .ok bs := by
  obtain ⟨bs, hb⟩ := When.sized (f := f32) h (by decide) (fun _ => ⟨_, rfl⟩)
  unfold Wr.bbox
  rw [hb]
  exact ⟨_, rfl⟩
theorem When.mesh (m : Mesh) : When (mesh m) (∀ k ∈ m.lengths, k < 2 ^ 32) := by
  refine (When.pre rfl (When.pre rfl (When.pre rfl (When.pre rfl ((When.vec m.points fun _ => ⟨_, rfl⟩).seq ((When.vec m.colors fun _ => ⟨_, rfl⟩).seq
    ((When.vec m.stamps fun _ => ⟨_, rfl⟩).seq ((When.vec m.labels fun _ => ⟨_, rfl⟩).seq ((When.vec m.firstSeen fun _ => ⟨_, rfl⟩).seq
      (When.vec m.faces fun _ => ⟨_, rfl⟩)))))))))).iff ?_
  simp [Mesh.lengths]
theorem When.semantic {s : SemanticAttrs} (h : s.Typed) : When (semanticAttrs s) (∀ k ∈ s.lengths, k < 2 ^ 32) := by
  obtain ⟨bs, hb⟩ := When.bbox h.1
  refine ((When.str _).seq (When.pre rfl (When.pre hb (When.pre rfl (When.matrix (f := f64) s.feature fun _ => ⟨_, rfl⟩))))).iff ?_
  simp [SemanticAttrs.lengths]
theorem When.object (o : ObjectAttrs) : When (objectAttrs o) (o.meshConnections.length < 2 ^ 32) :=
  (When.vec _ fun _ => ⟨_, rfl⟩).post rfl
theorem When.mapp {α : Type} {f : α → Wr} {p : α → Prop} (m : OMap Str α) (h : ∀ a, When (f a) (p a)) :
    When (map Wr.str f m) (m.size < 2 ^ 32 ∧ (∀ s ∈ m.keys, s.length < 2 ^ 32) ∧ ∀ e ∈ m.toList, p e.2) := by
  refine ((When.len _).seq (When.all fun e _ => (When.str e.1).seq (h e.2))).iff ?_
  rw [forall_and_mem]
  exact and_congr Iff.rfl (and_congr ⟨fun x s hs => by
    obtain ⟨e, he, rfl⟩ := List.mem_map.1 hs
    exact x e he, fun x e he => x e.1 (List.mem_map_of_mem he)⟩ Iff.rfl)
theorem When.place (p : PlaceAttrs) :
    When (placeAttrs p) (p.voxblox.length < 2 ^ 32 ∧ p.pcl.length < 2 ^ 32 ∧ p.labels.length < 2 ^ 32 ∧ p.deformation.length < 2 ^ 32) :=
  When.pre rfl (When.pre rfl ((When.vec _ When.nvi).seq ((When.vec _ fun _ => ⟨_, rfl⟩).seq ((When.vec _ fun _ => ⟨_, rfl⟩).seq
    ((When.vec _ fun _ => ⟨_, rfl⟩).post rfl)))))
theorem When.place2d {p : Place2dAttrs} (h : p.Typed) :
    When (place2dAttrs p) (p.boundary.length < 2 ^ 32 ∧ p.pclBoundary.length < 2 ^ 32 ∧ p.voxblox.length < 2 ^ 32 ∧ p.pcl.length < 2 ^ 32 ∧
      p.labels.length < 2 ^ 32 ∧ p.deformation.length < 2 ^ 32) := by
  obtain ⟨b1, h1⟩ := When.sized (f := f64) h.1 (by decide) (fun _ => ⟨_, rfl⟩)
  obtain ⟨b2, h2⟩ := When.sized (f := f64) h.2 (by decide) (fun _ => ⟨_, rfl⟩)
  exact (When.vec _ fun _ => ⟨_, rfl⟩).seq (When.pre rfl (When.pre h1 (When.pre h2 ((When.vec _ fun _ => ⟨_, rfl⟩).seq ((When.vec _ When.nvi).seq
    ((When.vec _ fun _ => ⟨_, rfl⟩).seq ((When.vec _ fun _ => ⟨_, rfl⟩).seq ((When.vec _ fun _ => ⟨_, rfl⟩).post rfl))))))))
theorem When.agent (a : AgentAttrs) : When (agentAttrs a) (a.dbowIds.values < 2 ^ 32 ∧ a.dbowValues.values < 2 ^ 32) :=
  When.pre rfl (When.pre rfl ((When.matrix _ fun _ => ⟨_, rfl⟩).seq (When.matrix _ fun _ => ⟨_, rfl⟩)))
theorem When.khronos (k : KhronosAttrs) :
    When (khronosAttrs k) (k.firstObserved.length < 2 ^ 32 ∧ k.lastObserved.length < 2 ^ 32 ∧ (∀ n ∈ k.mesh.lengths, n < 2 ^ 32) ∧
      k.trajectoryPositions.length < 2 ^ 32 ∧ k.trajectoryTimestamps.length < 2 ^ 32 ∧
      (k.dynamicPoints.length < 2 ^ 32 ∧ ∀ l ∈ k.dynamicPoints, l.length < 2 ^ 32) ∧
      (k.details.size < 2 ^ 32 ∧ (∀ s ∈ k.details.keys, s.length < 2 ^ 32) ∧ ∀ e ∈ k.details.toList, e.2.length < 2 ^ 32)) :=
  (When.vec _ fun _ => ⟨_, rfl⟩).seq ((When.vec _ fun _ => ⟨_, rfl⟩).seq ((When.mesh _).seq ((When.vec _ fun _ => ⟨_, rfl⟩).seq
    ((When.vec _ fun _ => ⟨_, rfl⟩).seq ((When.vecp _ fun l _ => When.vec l fun _ => ⟨_, rfl⟩).seq
      (When.mapp (p := fun l : List UInt64 => l.length < 2 ^ 32) _ fun l => When.vec l fun _ => ⟨_, rfl⟩))))))
theorem base_ok (b : BaseAttrs) : ∃ bs, baseAttrs b = .ok bs := ⟨_, rfl⟩

theorem When.nodeAttrs (W : Registry NodeClass) (a : NodeAttrs) (h : a.Typed) : When (nodeAttrs W a) (∀ k ∈ a.lengths, k < 2 ^ 32) := by
  refine When.pre rfl ?_
  cases a with
  | base b =>
    obtain ⟨bs, hb⟩ := base_ok b
    exact (When.of_ok hb).iff (by simp [NodeAttrs.lengths])
  | semantic b s => exact When.pre (base_ok b).choose_spec (When.semantic h)
  | object b s o =>
    refine (When.pre (base_ok b).choose_spec ((When.semantic h).seq (When.object o))).iff ?_
    simp only [NodeAttrs.lengths, List.forall_mem_append]
    simp
  | room b s p =>
    refine (When.pre (base_ok b).choose_spec ((When.semantic h).seq (When.mapp (p := fun _ => True) p fun a => .of_ok rfl))).iff ?_
    simp only [NodeAttrs.lengths, List.forall_mem_append]
    simp
  | place b s p =>
    refine (When.pre (base_ok b).choose_spec ((When.semantic h).seq (When.place p))).iff ?_
    simp only [NodeAttrs.lengths, List.forall_mem_append]
    simp
  | place2d b s p =>
    refine (When.pre (base_ok b).choose_spec ((When.semantic h.1).seq (When.place2d h.2))).iff ?_
    simp only [NodeAttrs.lengths, List.forall_mem_append]
    simp
  | agent b a =>
    refine (When.pre (base_ok b).choose_spec (When.agent a)).iff ?_
    simp [NodeAttrs.lengths]
  | khronos b s o k =>
    refine (When.pre (base_ok b).choose_spec ((When.semantic h).seq (When.khronos k))).iff ?_
    simp only [NodeAttrs.lengths, List.forall_mem_append, List.forall_mem_cons, List.forall_mem_map]
    constructor
    · rintro ⟨h0, h1, h2, h3, h4, h5, h6, h7⟩
      exact ⟨⟨⟨⟨⟨h0, h1, h2, h4, h5, by simp⟩, h3⟩, h6⟩, h7.1, h7.2.1⟩, h7.2.2⟩
    · rintro ⟨⟨⟨⟨⟨h0, h1, h2, h4, h5, _⟩, h3⟩, h6⟩, h71, h72⟩, h73⟩
      exact ⟨h0, h1, h2, h3, h4, h5, h6, h71, h72, h73⟩

theorem When.node (W : Registry NodeClass) (σ : Spec) (n : NodeId) (i : NodeInfo) (h : i.attrs.Typed) :
    When (node W (some (σ.mkNode n i))) (∀ k ∈ i.attrs.lengths, k < 2 ^ 32) := by
  have : ∃ bs, opt stamp (σ.mkNode n i).timestamp = .ok bs := by cases (σ.mkNode n i).timestamp <;> exact ⟨_, rfl⟩
  obtain ⟨bs, hb⟩ := this
  exact When.pre rfl (When.pre rfl (When.pre rfl (When.pre hb (When.nodeAttrs W i.attrs h))))
theorem edge_ok (V : Registry EdgeClass) (e : EdgeInfo) : ∃ bs, edge V (Spec.mkEdge e) = .ok bs := ⟨_, rfl⟩

theorem When.names {γ : Type} (W : Registry γ) : When (Wr.vec Wr.str W.names) (W.names.length < 2 ^ 32 ∧ ∀ s ∈ W.names, s.length < 2 ^ 32) :=
  When.vecp _ fun s _ => When.str s
theorem When.dynArr {α : Type} {f : α → Wr} {p : α → Prop} {l : List α} (h : ∀ a ∈ l, When (f a) (p a)) : When (Wr.dynArr f l) (∀ a ∈ l, p a) :=
  When.pre rfl ((When.all h).post rfl)

/-- A null pointer among nodes that can be written. -/
theorem all_null (W : Registry NodeClass) : ∀ {l : List (Option Node)}, none ∈ l → (∀ x, some x ∈ l → ∃ bs, node W (some x) = .ok bs) → Wr.all (node W) l = .ub
  | [], h, _ => absurd h (by simp)
  | none :: l, _, _ => rfl
  | some x :: l, h, hl => by
    obtain ⟨bs, hb⟩ := hl x (by simp)
    have := all_null W (l := l) (by simpa using h) (fun y hy => hl y (by simp [hy]))
    rw [Wr.all, hb, this]
    rfl
end Wr

section
variable {g : Graph} {σ : Spec}

theorem R.slots_when (hg : R g σ) (hw : SWF σ) (hlen : ∀ d ∈ g.dynList, d.nodes.length < 2 ^ 32) (ht : ∀ n i, g.nodeObs n = some i → i.attrs.Typed)
    (W : Registry NodeClass) {x : Node} (hx : x ∈ g.staticNodes ++ g.dynNodes) :
    ∃ i, g.nodeObs x.id = some i ∧ Wr.When (Wr.node W (some x)) (∀ k ∈ i.attrs.lengths, k < 2 ^ 32) := by
  obtain ⟨k, b, hb, hx⟩ := (g.mem_recs x).1 hx
  obtain ⟨i, h1, _, h3⟩ := hg.recs_entry hlen hb hx
  have ho : g.nodeObs x.id = some i := by rw [hg.nodeObs hw]; exact h1
  refine ⟨i, ho, ?_⟩
  rw [h3]
  exact Wr.When.node W σ _ i (ht _ _ ho)

/-- everything but the nodes of trajectories -/
theorem R.slot_cond (hg : R g σ) (hw : SWF σ) (hlen : ∀ d ∈ g.dynList, d.nodes.length < 2 ^ 32)  :
    (∀ n i, g.nodeObs n = some i → ∀ k ∈ i.attrs.lengths, k < 2 ^ 32) ↔
      (∀ x ∈ g.staticNodes, ∀ i, g.nodeObs x.id = some i → ∀ k ∈ i.attrs.lengths, k < 2 ^ 32) ∧
      (∀ x ∈ g.dynNodes, ∀ i, g.nodeObs x.id = some i → ∀ k ∈ i.attrs.lengths, k < 2 ^ 32) := by
  constructor
  · exact fun h => ⟨fun x _ => h x.id, fun x _ => h x.id⟩
  · intro h n i hi
    obtain ⟨x, hx, hxe⟩ := List.mem_map.1 ((hg.mem_nodes hw hlen n i).2 (by rw [← hg.nodeObs hw]; exact hi))
    have : x.id = n := congrArg Prod.fst hxe
    subst this
    rcases List.mem_append.1 hx with hx | hx
    · exact h.1 x hx i hi
    · exact h.2 x hx i hi

theorem R.when_list (hg : R g σ) (hw : SWF σ) (hlen : ∀ d ∈ g.dynList, d.nodes.length < 2 ^ 32) (ht : ∀ n i, g.nodeObs n = some i → i.attrs.Typed)
    (W : Registry NodeClass) {l : List Node} (hl : ∀ x ∈ l, x ∈ g.staticNodes ++ g.dynNodes) :
    Wr.When (Wr.dynArr (Wr.node W) (l.map some)) (∀ x ∈ l, ∀ i, g.nodeObs x.id = some i → ∀ k ∈ i.attrs.lengths, k < 2 ^ 32) := by
  refine (Wr.When.dynArr (p := fun s : Option Node => ∀ x, s = some x → ∀ i, g.nodeObs x.id = some i → ∀ k ∈ i.attrs.lengths, k < 2 ^ 32) ?_).iff ?_
  · intro s hs
    obtain ⟨x, hx, rfl⟩ := List.mem_map.1 hs
    obtain ⟨i, h1, h2⟩ := hg.slots_when hw hlen ht W (hl x hx)
    refine h2.iff ⟨fun h y hy j hj => ?_, fun h => h x rfl i h1⟩
    cases hy
    rw [h1] at hj
    cases hj
    exact h
  · constructor
    · exact fun h x hx => h (some x) (List.mem_map_of_mem hx) x rfl
    · intro h s hs x hx
      obtain ⟨y, hy, rfl⟩ := List.mem_map.1 hs
      cases hx
      exact h _ hy

theorem Graph.dynSlots_eq (g : Graph) (h : ¬ g.Gap) : g.dynSlots = g.dynNodes.map some := by
  have key : ∀ l : List (Option Node), none ∉ l → l = (l.filterMap id).map some := by
    intro l
    induction l with
    | nil => exact fun _ => rfl
    | cons a l ih =>
      intro hn
      cases a with
      | none => simp at hn
      | some x =>
        have := ih (fun hm => hn (List.mem_cons_of_mem _ hm))
        simp only [List.filterMap_cons, id_eq, List.map_cons]
        rw [← this]
  refine key _ fun hn => h ?_
  obtain ⟨d, hd, h⟩ := List.mem_flatMap.1 hn
  exact ⟨d, hd, h⟩

theorem R.when_edges (hg : R g σ) (hw : SWF σ) (V : Registry EdgeClass) : ∃ bs, Wr.dynArr (Wr.edge V) g.allEdges = .ok bs := by
  refine (Wr.When.dynArr (p := fun _ => True) (fun e he => ?_)).1 (fun _ _ => trivial)
  obtain ⟨c, k, hk⟩ := (g.mem_allEdges e).1 he
  rw [(hg.edge_rec hw hk).2.2.1]
  exact .of_ok (Wr.edge_ok V _).choose_spec

theorem Graph.when_mesh (g : Graph) (incl : Bool) :
    Wr.When (match (if incl then g.mesh else none) with | none => Wr.bool false | some m => Wr.seq (Wr.bool true) (Wr.mesh m))
      (∀ m, g.mesh = some m → incl = true → ∀ k ∈ m.lengths, k < 2 ^ 32) := by
  cases incl with
  | false => exact (Wr.When.of_ok rfl).iff (by simp)
  | true =>
    simp only [if_true]
    cases g.mesh with
    | none => exact (Wr.When.of_ok rfl).iff (by simp)
    | some m => exact (Wr.When.pre rfl (Wr.When.mesh m)).iff (by simp)

/-- Without gaps. -/
theorem R.writes (hg : R g σ) (hw : SWF σ) (hlen : ∀ d ∈ g.dynList, d.nodes.length < 2 ^ 32) (ht : ∀ n i, g.nodeObs n = some i → i.attrs.Typed)
    (W : Registry NodeClass) (V : Registry EdgeClass) (incl : Bool) (h : ¬ g.Gap) : Wr.When (g.write W V incl) (g.Fits W V incl) := by
  obtain ⟨es, he⟩ := hg.when_edges hw V
  refine ((Wr.When.vec (f := Wr.u64) _ fun _ => ⟨_, rfl⟩).seq ((Wr.When.names W).seq ((Wr.When.names V).seq ((hg.when_list hw hlen ht W (fun x hx => List.mem_append_left _ hx)).seq
    ((g.dynSlots_eq h ▸ hg.when_list hw hlen ht W (fun x hx => List.mem_append_right _ hx)).seq (Wr.When.pre he (g.when_mesh incl))))))).iff ?_
  constructor
  · rintro ⟨h1, h2, h3, h4, h5, h6⟩
    exact ⟨h1, h2, h3, (hg.slot_cond hw hlen).2 ⟨h4, h5⟩, h6⟩
  · intro h
    have := (hg.slot_cond hw hlen).1 h.nodes
    exact ⟨h.layers, h.nodeClasses, h.edgeClasses, this.1, this.2, h.mesh⟩

/-- With a gap. -/
theorem R.write_gap (hg : R g σ) (hw : SWF σ) (hlen : ∀ d ∈ g.dynList, d.nodes.length < 2 ^ 32) (ht : ∀ n i, g.nodeObs n = some i → i.attrs.Typed)
    (W : Registry NodeClass) (V : Registry EdgeClass) (incl : Bool) (h : g.Gap) :
    (g.Fits W V incl → g.write W V incl = .ub) ∧ ∀ bs, g.write W V incl ≠ .ok bs := by
  constructor
  · intro hf
    have hc := (hg.slot_cond hw hlen).1 hf.nodes
    obtain ⟨b1, h1⟩ := (Wr.When.vec (f := Wr.u64) g.layerIds fun _ => ⟨_, rfl⟩).1 hf.layers
    obtain ⟨b2, h2⟩ := (Wr.When.names W).1 hf.nodeClasses
    obtain ⟨b3, h3⟩ := (Wr.When.names V).1 hf.edgeClasses
    obtain ⟨b4, h4⟩ := (hg.when_list hw hlen ht W (fun x hx => List.mem_append_left _ hx)).1 hc.1
    have h5 : Wr.all (Wr.node W) g.dynSlots = .ub := by
      refine Wr.all_null W ?_ ?_
      · obtain ⟨d, hd, hn⟩ := h
        exact List.mem_flatMap.2 ⟨d, hd, hn⟩
      · intro x hx
        have hx : x ∈ g.dynNodes := List.mem_filterMap.2 ⟨some x, hx, rfl⟩
        obtain ⟨i, h1, h2⟩ := hg.slots_when hw hlen ht W (List.mem_append_right _ hx)
        exact h2.1 (hc.2 x hx i h1)
    unfold Graph.write
    rw [h1, h2, h3, h4, Wr.dynArr, h5]
    rfl
  · intro bs hb
    obtain ⟨_, r1, _, h1, _⟩ := Rd.seq_ok hb
    obtain ⟨_, r2, _, h2, _⟩ := Rd.seq_ok h1
    obtain ⟨_, r3, _, h3, _⟩ := Rd.seq_ok h2
    obtain ⟨_, r4, _, h4, _⟩ := Rd.seq_ok h3
    obtain ⟨b5, r5, h5, _, _⟩ := Rd.seq_ok h4
    obtain ⟨_, r6, _, h6, _⟩ := Rd.seq_ok h5
    obtain ⟨b7, r7, h7, _, _⟩ := Rd.seq_ok h6
    have key : ∀ {l : List (Option Node)} {bs : List UInt8}, Wr.all (Wr.node W) l = .ok bs → none ∉ l := by
      intro l
      induction l with
      | nil => exact fun _ => by simp
      | cons a l ih =>
        intro bs hb
        obtain ⟨_, _, h1, h2, _⟩ := Rd.seq_ok hb
        cases a with
        | none => cases h1
        | some x => simpa using ih h2
    obtain ⟨d, hd, hn⟩ := h
    exact key h7 (List.mem_flatMap.2 ⟨d, hd, hn⟩)

/-- a dynamic layer, and the slot of one of its nodes -/
theorem R.slot_of (hg : R g σ) {n : NodeId} {i : NodeInfo} (hi : σ.nodes.find? n = some i) {l : LayerId} {p : Prefix} (hk : i.key = .dyn l p) :
    ∃ d, g.dynLayer? l p = some d ∧ p.isMatch n = true ∧ p.index n < (σ.dynInfo l p).top := by
  have h1 : g.view.node (.dyn l p) n = some (σ.mkNode n i) := by
    rw [RV.node hg]
    unfold Spec.nodeRec
    rw [hi]
    simp [hk]
  obtain ⟨b, hb, hn⟩ := Option.bind_eq_some_iff.1 (show (g.layerAt? (.dyn l p)).bind (·.nd n) = some (σ.mkNode n i) from h1)
  have hb0 := hb
  simp only [Graph.layerAt?, Option.map_eq_some_iff] at hb
  obtain ⟨d, hd, rfl⟩ := hb
  have hinfo := RV.info hg (.dyn l p) (BaseLayer.info (.dyn d)) (by simp [Graph.view, hb0])
  obtain ⟨_, i2, _, i4, _⟩ := hinfo
  simp only [BaseLayer.info] at i2 i4
  obtain ⟨hm, hx⟩ := BaseLayer.nd_dyn_lt hn
  rw [i2] at hm hx
  refine ⟨d, hd, hm, ?_⟩
  rw [← i4]
  rcases Nat.lt_or_ge (p.index n) d.nodes.length with h' | h'
  · exact h'
  · rw [List.getElem?_eq_none h'] at hx; cases hx

/-- A slot below the top without a node is a gap. -/
theorem R.gap_of (hg : R g σ) {l : LayerId} {p : Prefix} {d : DynLayer} (hd : g.dynLayer? l p = some d) {n : NodeId} (hm : p.isMatch n = true)
    (ht : p.index n < (σ.dynInfo l p).top) (hn : σ.nodes.find? n = none) : g.Gap := by
  have hb : g.layerAt? (.dyn l p) = some (.dyn d) := by simp [Graph.layerAt?, hd]
  obtain ⟨_, i2, _, i4, _⟩ := RV.info hg (.dyn l p) (BaseLayer.info (.dyn d)) (by simp [Graph.view, hb])
  simp only [BaseLayer.info] at i2 i4
  have hmem : d ∈ g.dynList := by
    simp only [Graph.dynLayer?, Option.bind_eq_some_iff] at hd
    obtain ⟨m, hm, hd⟩ := hd
    simp only [Graph.dynList, List.mem_flatMap, List.mem_map]
    exact ⟨(l, m), OMap.mem_toList.2 hm, (p, d), OMap.mem_toList.2 hd, rfl⟩
  refine ⟨d, hmem, ?_⟩
  rw [← i4] at ht
  have h1 : g.view.node (.dyn l p) n = none := by
    rw [RV.node hg]
    unfold Spec.nodeRec
    rw [hn]
    rfl
  rw [Graph.view_node_of_layerAt? hb] at h1
  simp only [BaseLayer.nd, i2, hm, if_true] at h1
  rw [List.getElem?_eq_getElem ht] at h1
  have : d.nodes[p.index n] = none := by simpa using h1
  rw [← this]
  exact List.getElem_mem ht

theorem Spec.bridge_dyn (σ : Spec) (n : NodeId) : (σ.bridge n).dyn = σ.dyn := by
  unfold Spec.bridge
  split
  · split <;> rfl
  · rfl
end
end Verif
