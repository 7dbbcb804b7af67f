import Verif.Refine.MergeNodes
/-!
# Operations on the whole graph: create, clear, mesh, change logs, stale marks
-/

namespace Verif

/-! ## create / clear / reset -/

theorem find?_foldl_insert {K V : Type} [DecidableEq K] [OKey K] (f : K → V) (L : List K) (m : OMap K V) (k : K) :
    (L.foldl (fun m a => m.insert a (f a)) m).find? k = if L.contains k then some (f k) else m.find? k := by
  induction L generalizing m with
  | nil => simp
  | cons a L ih =>
    rw [List.foldl_cons, ih, OMap.find?_insert]
    by_cases h : L.contains k = true
    · have h' : k ∈ L := by simpa using h
      rw [if_pos h, if_pos (by simp [h'])]
    · have h' : k ∉ L := by simpa using h
      by_cases e : a = k
      · subst e; simp [h']
      · simp [h', e, Ne.symm e]

theorem Graph.layerAt?_clear (g : Graph) (k : LayerKey) : g.clear.layerAt? k =
    match k with
    | .static l => if g.layerIds.contains l then some (.static { id := l }) else none
    | .dyn _ _ => none := by
  cases k with
  | static l =>
    simp only [layerAt?, clear, find?_foldl_insert (fun l => ({ id := l } : Layer))]
    split <;> simp
  | dyn l p => simp [layerAt?, clear, dynLayer?]

/-- Clearing any graph with the right layer list and interlayer marks. -/
theorem R.clear_of {g : Graph} {σ : Spec} (hl : g.layerIds = σ.layerIds)
    (hi : ∀ key, g.inter.stale.find? key = some true ↔ σ.marks.find? key = some (.across false))
    (hd : ∀ key, g.dynInter.stale.find? key = some true ↔ σ.marks.find? key = some (.across true)) : R g.clear σ.clear := by
  refine ⟨hl, rfl, ?_, ?_, ?_, ?_, ?_, ?_⟩
  · intro n; simp [Graph.view, Graph.clear, Spec.key?, Spec.clear]
  · intro k n
    simp only [Graph.view, Graph.layerAt?_clear, Spec.nodeRec, Spec.clear]
    cases k with
    | static l => simp only []; split <;> simp [BaseLayer.nd]
    | dyn l p => rfl
  · intro k n
    simp only [Graph.view, Graph.layerAt?_clear]
    cases k with
    | static l => simp only []; split <;> simp [BaseLayer.nd, BaseLayer.nst, NodeStatus.live]
    | dyn l p => rfl
  · intro c
    have hE : ∀ key, (σ.clear).edgeRec c key = none := by intro key; simp [Spec.edgeRec, Spec.clear]
    have hM : ∀ key, σ.clear.marks.find? key = (σ.marks.find? key).bind
        (fun p => match p with | .within _ => none | .across b => some (.across b)) := by
      intro key
      simp only [Spec.clear, OMap.find?_filter]
      cases σ.marks.find? key with
      | none => rfl
      | some p => cases p <;> rfl
    have hempty : ∀ k, g.clear.view.ec (.within k) = {} := by
      intro k
      simp only [Graph.view, Graph.ecAt?, Graph.layerAt?_clear]
      cases k with
      | static l => simp only []; split <;> rfl
      | dyn l p => rfl
    cases c with
    | within k =>
      rw [hempty]
      refine ⟨fun key => by simp [hE], fun key => by simp [EdgeStatus.live], ?_⟩
      intro key
      rw [hM]
      simp only [OMap.find?_emptyc]
      cases σ.marks.find? key with
      | none => simp
      | some p => cases p <;> simp
    | across b =>
      have hec : (g.clear.view.ec (.across b)).stale = (if b then g.dynInter else g.inter).stale ∧
          (g.clear.view.ec (.across b)).edges = ∅ ∧ (g.clear.view.ec (.across b)).status = ∅ := by
        cases b <;> exact ⟨rfl, rfl, rfl⟩
      refine ⟨fun key => by rw [hec.2.1, hE]; rfl, fun key => by rw [hec.2.1, hec.2.2]; rfl, ?_⟩
      intro key
      rw [hec.1, hM]
      cases b with
      | false =>
        simp only [Bool.false_eq_true, if_false]
        rw [hi]
        cases σ.marks.find? key with
        | none => simp
        | some p => cases p <;> simp
      | true =>
        simp only [if_true]
        rw [hd]
        cases σ.marks.find? key with
        | none => simp
        | some p => cases p <;> simp
  · intro k
    simp only [Graph.view, Graph.layerAt?_clear, Spec.hasKey, Spec.clear]
    cases k with
    | static l => simp only [hl]; split <;> simp_all
    | dyn l p => simp [OMap.contains]
  · intro k m hm
    simp only [Graph.view, Graph.layerAt?_clear] at hm
    cases k with
    | static l =>
      simp only [] at hm
      split at hm
      · simp only [Option.map_some, Option.some.injEq] at hm; subst hm; rfl
      · simp at hm
    | dyn l p => simp at hm

theorem R.marks_across {g : Graph} {σ : Spec} (h : R g σ) :
    (∀ key, g.inter.stale.find? key = some true ↔ σ.marks.find? key = some (.across false)) ∧
    (∀ key, g.dynInter.stale.find? key = some true ↔ σ.marks.find? key = some (.across true)) :=
  ⟨fun key => (RV.ec h (.across false)).stale key, fun key => (RV.ec h (.across true)).stale key⟩

theorem R.clear {g : Graph} {σ : Spec} (h : R g σ) : R g.clear σ.clear :=
  R.clear_of h.layerIds h.marks_across.1 h.marks_across.2

theorem R.reset {g : Graph} {σ : Spec} (h : R g σ) (ids : List LayerId) : R (g.reset ids) (σ.reset ids) :=
  R.clear_of (g := { g with layerIds := ids }) (σ := { σ with layerIds := ids }) rfl h.marks_across.1 h.marks_across.2

theorem SWF.empty (ids : List LayerId) : SWF { layerIds := ids } where
  edge key e h := by simp at h
  node n i h := by simp at h
  dyn n i l p h := by simp at h
  stamps n m i j l p h := by simp at h
  marks key c h := by simp at h

theorem SWF.clear {σ : Spec} (hw : SWF σ) : SWF σ.clear where
  edge key e h := by simp [Spec.clear] at h
  node n i h := by simp [Spec.clear] at h
  dyn n i l p h := by simp [Spec.clear] at h
  stamps n m i j l p h := by simp [Spec.clear] at h
  marks key c h := by
    simp only [Spec.clear, OMap.find?_filter] at h
    cases hm : σ.marks.find? key with
    | none => simp [hm] at h
    | some p => exact hw.marks key p hm

theorem SWF.reset {σ : Spec} (hw : SWF σ) (ids : List LayerId) : SWF (σ.reset ids) where
  edge key e h := by simp [Spec.clear, Spec.reset] at h
  node n i h := by simp [Spec.clear, Spec.reset] at h
  dyn n i l p h := by simp [Spec.clear, Spec.reset] at h
  stamps n m i j l p h := by simp [Spec.clear, Spec.reset] at h
  marks key c h := hw.clear.marks key c h

theorem Spec.clear_empty (ids : List LayerId) : Spec.clear { layerIds := ids } = { layerIds := ids } := by
  apply Spec.ext' <;> try rfl

theorem R.create {ids : List LayerId} (h : ids ≠ []) :
    ∃ g, Graph.create ids = .ok g ∧ R g { layerIds := ids } := by
  refine ⟨Graph.clear { layerIds := ids }, by simp only [Graph.create, h, if_false], ?_⟩
  rw [← Spec.clear_empty]
  exact R.clear_of rfl (by intro key; simp) (by intro key; simp)

theorem R.setMesh {g : Graph} {σ : Spec} (h : R g σ) (m : Option Mesh) :
    Adv .deleted g.view (g.setMesh m).view { σ with mesh := m } := by
  refine ⟨⟨h.layerIds, rfl, h.lookup, h.node, h.live, ?_, h.has, h.info⟩, ?_, ?_⟩
  · intro c; exact ⟨(h.ec c).edges, (h.ec c).status, (h.ec c).stale⟩
  · intro k n
    have e1 : (g.setMesh m).view.node k n = g.view.node k n := rfl
    rw [e1, if_pos rfl]; rfl
  · intro c key
    have e1 : (g.setMesh m).view.hasE c key = g.view.hasE c key := rfl
    rw [e1, if_pos rfl]; rfl

theorem SWF.setMesh {σ : Spec} (hw : SWF σ) (m : Option Mesh) : SWF { σ with mesh := m } :=
  ⟨hw.edge, hw.node, hw.dyn, hw.stamps, hw.marks⟩

/-! ## `visitLayers` -/

namespace Graph

/-- the visitor keeps the kind of the layer -/
def KeepsKind {α : Type} (f : BaseLayer → BaseLayer × List α) : Prop :=
  (∀ l, ∃ l', (f (.static l)).1 = .static l') ∧ (∀ d, ∃ d', (f (.dyn d)).1 = .dyn d')

theorem layerAt?_visit {α : Type} (g : Graph) {f : BaseLayer → BaseLayer × List α} (hf : KeepsKind f) (k : LayerKey) :
    (g.visitLayers f).1.layerAt? k = (g.layerAt? k).map (fun b => (f b).1) := by
  cases k with
  | static l =>
    simp only [layerAt?, visitLayers, OMap.find?_map, Option.map_map]
    cases hx : g.layers.find? l with
    | none => simp
    | some x =>
      obtain ⟨l', e⟩ := hf.1 x
      simp [e]
  | dyn l p =>
    simp only [layerAt?, visitLayers, dynLayer?, OMap.find?_map, Option.map_map]
    cases hx : g.dyns.find? l with
    | none => simp
    | some m =>
      simp only [Option.map_some, Option.bind_some, OMap.find?_map, Option.map_map]
      cases hy : m.find? p with
      | none => simp
      | some d =>
        obtain ⟨d', e⟩ := hf.2 d
        simp [e]

theorem mem_visit {α : Type} (g : Graph) (f : BaseLayer → BaseLayer × List α) (x : α) :
    x ∈ (g.visitLayers f).2 ↔ ∃ k b, g.layerAt? k = some b ∧ x ∈ (f b).2 := by
  simp only [visitLayers, List.mem_append, List.mem_flatMap]
  constructor
  · rintro (⟨⟨l, y⟩, hl, hx⟩ | ⟨⟨l, m⟩, hl, ⟨p, d⟩, hd, hx⟩)
    · exact ⟨.static l, .static y, by simp [layerAt?, OMap.mem_toList.1 hl], hx⟩
    · exact ⟨.dyn l p, .dyn d, by simp [layerAt?, dynLayer?, OMap.mem_toList.1 hl, OMap.mem_toList.1 hd], hx⟩
  · rintro ⟨k, b, hb, hx⟩
    cases k with
    | static l =>
      simp only [layerAt?, Option.map_eq_some_iff] at hb
      obtain ⟨y, hy, rfl⟩ := hb
      exact .inl ⟨(l, y), OMap.mem_toList.2 hy, hx⟩
    | dyn l p =>
      simp only [layerAt?, dynLayer?, Option.map_eq_some_iff, Option.bind_eq_some_iff] at hb
      obtain ⟨d, ⟨m, hm, hd⟩, rfl⟩ := hb
      exact .inr ⟨(l, m), OMap.mem_toList.2 hm, (p, d), OMap.mem_toList.2 hd, hx⟩

theorem nodup_flatMap {α β : Type} {L : List α} {F : α → List β} (h1 : ∀ a ∈ L, (F a).Nodup)
    (h2 : L.Pairwise (fun a b => ∀ x ∈ F a, x ∉ F b)) : (L.flatMap F).Nodup := by
  induction L with
  | nil => simp
  | cons a L ih =>
    rw [List.pairwise_cons] at h2
    rw [List.flatMap_cons, List.nodup_append]
    refine ⟨h1 a List.mem_cons_self, ih (fun b hb => h1 b (List.mem_cons_of_mem _ hb)) h2.2, ?_⟩
    intro x hx y hy e
    subst e
    obtain ⟨b, hb, hy⟩ := List.mem_flatMap.1 hy
    exact h2.1 b hb x hx hy

theorem nodup_visit {α : Type} (g : Graph) (f : BaseLayer → BaseLayer × List α)
    (h1 : ∀ k b, g.layerAt? k = some b → (f b).2.Nodup)
    (h2 : ∀ k k' b b', g.layerAt? k = some b → g.layerAt? k' = some b' → ∀ x ∈ (f b).2, x ∈ (f b').2 → k = k') :
    (g.visitLayers f).2.Nodup := by
  have hs : ∀ e ∈ g.layers.toList, g.layerAt? (.static e.1) = some (.static e.2) := by
    intro e he; simp [layerAt?, OMap.mem_toList.1 (show (e.1, e.2) ∈ g.layers.toList from he)]
  have hd : ∀ e ∈ g.dyns.toList, ∀ e' ∈ e.2.toList, g.layerAt? (.dyn e.1 e'.1) = some (.dyn e'.2) := by
    intro e he e' he'
    simp [layerAt?, dynLayer?, OMap.mem_toList.1 (show (e.1, e.2) ∈ g.dyns.toList from he),
      OMap.mem_toList.1 (show (e'.1, e'.2) ∈ e.2.toList from he')]
  have hpw : ∀ {K V : Type} [DecidableEq K] [OKey K] (m : OMap K V), m.toList.Pairwise (fun a b => a.1 ≠ b.1) := by
    intro K V _ _ m
    have := m.keys_nodup
    simpa [OMap.keys, List.Nodup, List.pairwise_map] using this
  simp only [visitLayers]
  rw [List.nodup_append]
  refine ⟨?_, ?_, ?_⟩
  · apply nodup_flatMap
    · intro e he; exact h1 _ _ (hs e he)
    · refine List.Pairwise.imp_of_mem ?_ (hpw g.layers)
      intro a b ha hb hab x hx hx'
      have := h2 _ _ _ _ (hs a ha) (hs b hb) x hx hx'
      simp only [LayerKey.static.injEq, LayerKey.dyn.injEq, true_and] at this; first | exact hab this | exact hab this.1
  · apply nodup_flatMap
    · intro e he
      apply nodup_flatMap
      · intro e' he'; exact h1 _ _ (hd e he e' he')
      · refine List.Pairwise.imp_of_mem ?_ (hpw e.2)
        intro a b ha hb hab x hx hx'
        have := h2 _ _ _ _ (hd e he a ha) (hd e he b hb) x hx hx'
        simp only [LayerKey.static.injEq, LayerKey.dyn.injEq, true_and] at this; first | exact hab this | exact hab this.1
    · refine List.Pairwise.imp_of_mem ?_ (hpw g.dyns)
      intro a b ha hb hab x hx hx'
      obtain ⟨a', ha', hx⟩ := List.mem_flatMap.1 hx
      obtain ⟨b', hb', hx'⟩ := List.mem_flatMap.1 hx'
      have := h2 _ _ _ _ (hd a ha a' ha') (hd b hb b' hb') x hx hx'
      simp only [LayerKey.static.injEq, LayerKey.dyn.injEq, true_and] at this; first | exact hab this | exact hab this.1
  · intro x hx y hy e
    subst e
    obtain ⟨a, ha, hx⟩ := List.mem_flatMap.1 hx
    obtain ⟨b, hb, hy⟩ := List.mem_flatMap.1 hy
    obtain ⟨b', hb', hy⟩ := List.mem_flatMap.1 hy
    have := h2 _ _ _ _ (hs a ha) (hd b hb b' hb') x hx hy
    cases this

end Graph

/-! ## Change logs -/

section
variable {g : Graph} {σ : Spec}

/-- Rewriting node statuses (never turning a live one into a dead one or back). -/
theorem R.mapStatus {g g' : Graph} {σ : Spec} (h : R g σ) (f : NodeStatus → Option NodeStatus)
    (hf : ∀ s, NodeStatus.live (f s) = NodeStatus.live (some s))
    (h1 : g'.view.layerIds = g.view.layerIds) (h2 : g'.view.mesh = g.view.mesh) (h3 : g'.view.lookup = g.view.lookup)
    (h4 : g'.view.node = g.view.node) (h5 : ∀ k n, g'.view.st k n = (g.view.st k n).bind f)
    (h6 : g'.view.ec = g.view.ec)
    (h7 : ∀ k, (g'.view.info k).isSome = (g.view.info k).isSome)
    (h8 : ∀ k m, g'.view.info k = some m → ∃ m', g.view.info k = some m' ∧ m.id = m'.id ∧ m.pre = m'.pre ∧ m.next = m'.next ∧
      m.top = m'.top ∧ m.times = m'.times ∧ (m'.small → m.small)) : R g' σ := by
  refine ⟨h1.trans h.layerIds, h2.trans h.mesh, ?_, ?_, ?_, ?_, ?_, ?_⟩
  · rw [h3]; exact h.lookup
  · rw [h4]; exact h.node
  · intro k n
    rw [h4, h5, ← RV.live h k n]
    cases g.view.st k n with
    | none => rfl
    | some s => exact hf s
  · rw [h6]; exact h.ec
  · intro k; rw [h7]; exact RV.has h k
  · intro k m hm
    obtain ⟨m', hm', e1, e2, e3, e4, e5, e6⟩ := h8 k m hm
    have := RV.info h k m' hm'
    cases k with
    | static l => exact e1.trans this
    | dyn l p =>
      obtain ⟨a1, a2, a3, a4, a5, a6⟩ := this
      exact ⟨e1.trans a1, e2.trans a2, e3.trans a3, e4.trans a4, e6 a5, by rw [e5]; exact a6⟩

/-- what `getNewNodes` does to a status -/
def seenN (clear : Bool) (s : NodeStatus) : Option NodeStatus := if clear ∧ s = .new then some .visible else some s
/-- what `getRemovedNodes` does to a status -/
def forgetN (clear : Bool) (s : NodeStatus) : Option NodeStatus := if clear ∧ s = .deleted then none else some s

theorem Graph.keeps_getNew (clear : Bool) : Graph.KeepsKind (fun b => b.getNewNodes clear) :=
  ⟨fun l => ⟨_, rfl⟩, fun d => ⟨_, rfl⟩⟩
theorem Graph.keeps_getRemoved (clear : Bool) : Graph.KeepsKind (fun b => b.getRemovedNodes clear) :=
  ⟨fun l => ⟨_, rfl⟩, fun d => ⟨_, rfl⟩⟩

theorem BaseLayer.nst_getNew (b : BaseLayer) (clear : Bool) (n : NodeId) :
    (b.getNewNodes clear).1.nst n = (b.nst n).bind (seenN clear) := by
  cases b with
  | static l =>
    simp only [getNewNodes, nst, Layer.getNewNodes]
    cases clear with
    | false => simp only [Bool.false_eq_true, if_false]; cases l.status.find? n <;> simp [seenN, *]
    | true =>
      simp only [if_true, OMap.find?_map]
      cases l.status.find? n with
      | none => rfl
      | some s => cases s <;> simp [seenN]
  | dyn d =>
    simp only [getNewNodes, nst, DynLayer.getNewNodes]
    by_cases hm : d.pre.isMatch n = true
    · simp only [hm, if_true]
      cases clear with
      | false => simp only [Bool.false_eq_true, if_false]; cases d.status.find? (d.pre.index n) <;> simp [seenN, *]
      | true =>
        simp only [if_true, OMap.find?_map]
        cases d.status.find? (d.pre.index n) with
        | none => rfl
        | some s => cases s <;> simp [seenN]
    · simp [hm]

theorem BaseLayer.nst_getRemoved (b : BaseLayer) (clear : Bool) (n : NodeId) :
    (b.getRemovedNodes clear).1.nst n = (b.nst n).bind (forgetN clear) := by
  cases b with
  | static l =>
    simp only [getRemovedNodes, nst, Layer.getRemovedNodes]
    cases clear with
    | false => simp only [Bool.false_eq_true, if_false]; cases l.status.find? n <;> simp [forgetN, *]
    | true =>
      simp only [if_true, OMap.find?_filter]
      cases l.status.find? n with
      | none => rfl
      | some s => cases s <;> simp [forgetN]
  | dyn d =>
    simp only [getRemovedNodes, nst, DynLayer.getRemovedNodes]
    by_cases hm : d.pre.isMatch n = true
    · simp only [hm, if_true]
      cases clear with
      | false => simp only [Bool.false_eq_true, if_false]; cases d.status.find? (d.pre.index n) <;> simp [forgetN, *]
      | true =>
        simp only [if_true, OMap.find?_filter]
        cases d.status.find? (d.pre.index n) with
        | none => rfl
        | some s => cases s <;> simp [forgetN]
    · simp [hm]

/-- The rest of a layer is untouched by the queries. -/
theorem BaseLayer.getNew_rest (b : BaseLayer) (clear : Bool) :
    (∀ n, (b.getNewNodes clear).1.nd n = b.nd n) ∧ (b.getNewNodes clear).1.ec = b.ec ∧
    (let m := (b.getNewNodes clear).1.info; m.id = b.info.id ∧ m.pre = b.info.pre ∧ m.next = b.info.next ∧ m.top = b.info.top ∧
      m.times = b.info.times ∧ (b.info.small → m.small)) := by
  cases b with
  | static l => exact ⟨fun _ => rfl, rfl, rfl, rfl, rfl, rfl, rfl, id⟩
  | dyn d =>
    refine ⟨fun _ => rfl, rfl, rfl, rfl, rfl, rfl, rfl, ?_⟩
    intro hs i hi
    apply hs i
    simp only [DynLayer.getNewNodes] at hi
    cases clear with
    | false => exact hi
    | true => simpa [OMap.contains, OMap.find?_map] using hi

theorem BaseLayer.getRemoved_rest (b : BaseLayer) (clear : Bool) :
    (∀ n, (b.getRemovedNodes clear).1.nd n = b.nd n) ∧ (b.getRemovedNodes clear).1.ec = b.ec ∧
    (let m := (b.getRemovedNodes clear).1.info; m.id = b.info.id ∧ m.pre = b.info.pre ∧ m.next = b.info.next ∧ m.top = b.info.top ∧
      m.times = b.info.times ∧ (b.info.small → m.small)) := by
  cases b with
  | static l => exact ⟨fun _ => rfl, rfl, rfl, rfl, rfl, rfl, rfl, id⟩
  | dyn d =>
    refine ⟨fun _ => rfl, rfl, rfl, rfl, rfl, rfl, rfl, ?_⟩
    intro hs i hi
    apply hs i
    simp only [DynLayer.getRemovedNodes] at hi
    cases clear with
    | false => exact hi
    | true =>
      simp only [if_true, OMap.contains, OMap.find?_filter] at hi ⊢
      cases hq : d.status.find? i with
      | none => simp [hq] at hi
      | some s => rfl

/-- A visitor over layers that only rewrites statuses. -/
theorem R.visit_status {α : Type} (h : R g σ) {F : BaseLayer → BaseLayer × List α} (hk : Graph.KeepsKind F)
    (f : NodeStatus → Option NodeStatus) (hf : ∀ s, NodeStatus.live (f s) = NodeStatus.live (some s))
    (h1 : ∀ b n, (F b).1.nst n = (b.nst n).bind f)
    (h2 : ∀ b, (∀ n, (F b).1.nd n = b.nd n) ∧ (F b).1.ec = b.ec ∧
      (let m := (F b).1.info; m.id = b.info.id ∧ m.pre = b.info.pre ∧ m.next = b.info.next ∧ m.top = b.info.top ∧
      m.times = b.info.times ∧ (b.info.small → m.small))) :
    R (g.visitLayers F).1 σ ∧ (∀ k n, (g.visitLayers F).1.view.st k n = (g.view.st k n).bind f) ∧
    (g.visitLayers F).1.view.node = g.view.node ∧ (g.visitLayers F).1.view.ec = g.view.ec := by
  have hl := g.layerAt?_visit hk
  have hst : ∀ k n, (g.visitLayers F).1.view.st k n = (g.view.st k n).bind f := by
    intro k n
    simp only [Graph.view, hl]
    cases g.layerAt? k with
    | none => rfl
    | some b => exact h1 b n
  have hnd : (g.visitLayers F).1.view.node = g.view.node := by
    funext k n
    simp only [Graph.view, hl]
    cases g.layerAt? k with
    | none => rfl
    | some b => exact (h2 b).1 n
  have hec : (g.visitLayers F).1.view.ec = g.view.ec := by
    funext c
    cases c with
    | within k =>
      simp only [Graph.view, Graph.ecAt?, hl]
      cases g.layerAt? k with
      | none => rfl
      | some b => exact (h2 b).2.1
    | across b => cases b <;> rfl
  refine ⟨h.mapStatus f hf rfl rfl rfl hnd hst hec ?_ ?_, hst, hnd, hec⟩
  · intro k; simp only [Graph.view, hl]; cases g.layerAt? k <;> rfl
  · intro k m hm
    simp only [Graph.view, hl, Option.map_map] at hm ⊢
    cases hb : g.layerAt? k with
    | none => simp [hb] at hm
    | some b =>
      simp only [hb, Option.map_some, Option.some.injEq, Function.comp] at hm
      subst hm
      exact ⟨b.info, rfl, (h2 b).2.2⟩

theorem R.getNewNodes (h : R g σ) (clear : Bool) :
    R (g.getNewNodes clear).1 σ ∧ (∀ k n, (g.getNewNodes clear).1.view.st k n = (g.view.st k n).bind (seenN clear)) ∧
    (g.getNewNodes clear).1.view.ec = g.view.ec := by
  obtain ⟨h1, h2, h3, h4⟩ := h.visit_status (Graph.keeps_getNew clear) (seenN clear)
    (by intro s; cases clear <;> cases s <;> rfl)
    (fun b n => b.nst_getNew clear n) (fun b => b.getNew_rest clear)
  exact ⟨h1, h2, h4⟩

theorem R.getRemovedNodes (h : R g σ) (clear : Bool) :
    R (g.getRemovedNodes clear).1 σ ∧ (∀ k n, (g.getRemovedNodes clear).1.view.st k n = (g.view.st k n).bind (forgetN clear)) ∧
    (g.getRemovedNodes clear).1.view.ec = g.view.ec := by
  obtain ⟨h1, h2, h3, h4⟩ := h.visit_status (Graph.keeps_getRemoved clear) (forgetN clear)
    (by intro s; cases clear <;> cases s <;> rfl)
    (fun b n => b.nst_getRemoved clear n) (fun b => b.getRemoved_rest clear)
  exact ⟨h1, h2, h4⟩

/-- the ids a layer reports as new are those with status NEW -/
theorem R.mem_layer_new (h : R g σ) {k : LayerKey} {b : BaseLayer} (hb : g.layerAt? k = some b) (clear : Bool) (n : NodeId) :
    n ∈ (b.getNewNodes clear).2 ↔ g.view.st k n = some .new := by
  have hv : g.view.st k n = b.nst n := by simp [Graph.view, hb]
  rw [hv]
  cases b with
  | static l =>
    simp only [BaseLayer.getNewNodes, Layer.getNewNodes, BaseLayer.nst, List.mem_map, List.mem_filter, decide_eq_true_eq, Prod.exists]
    constructor
    · rintro ⟨a, s, ⟨h1, h2⟩, rfl⟩; rw [OMap.mem_toList.1 h1, h2]
    · intro hh; exact ⟨n, _, ⟨OMap.mem_toList.2 hh, rfl⟩, rfl⟩
  | dyn d =>
    cases k with
    | static l => exact absurd (Graph.fits_of_layerAt? hb) id
    | dyn l p =>
      obtain ⟨i1, i2, i3, i4, i6, i5⟩ := RV.info h (.dyn l p) (BaseLayer.info (.dyn d)) (by simp [Graph.view, hb])
      simp only [BaseLayer.info] at i2 i6
      simp only [BaseLayer.getNewNodes, DynLayer.getNewNodes, BaseLayer.nst, List.mem_map, List.mem_filter, decide_eq_true_eq, Prod.exists]
      constructor
      · rintro ⟨a, s, ⟨h1, h2⟩, rfl⟩
        have hf := OMap.mem_toList.1 h1
        have hlt := i6 a (by simp [OMap.contains, hf])
        rw [if_pos (Prefix.isMatch_makeId _ hlt), Prefix.index_makeId _ _ hlt, hf, h2]
      · intro hh
        by_cases hm : d.pre.isMatch n = true
        · rw [if_pos hm] at hh
          exact ⟨_, _, ⟨OMap.mem_toList.2 hh, rfl⟩, Prefix.makeId_index hm⟩
        · rw [if_neg hm] at hh; cases hh

/-- the ids a layer reports as removed: DELETED, and in static layers also MERGED -/
theorem R.mem_layer_removed (h : R g σ) {k : LayerKey} {b : BaseLayer} (hb : g.layerAt? k = some b) (clear : Bool) (n : NodeId) :
    n ∈ (b.getRemovedNodes clear).2 ↔ g.view.st k n = some .deleted ∨ (k.dynamic = false ∧ g.view.st k n = some .merged) := by
  have hv : g.view.st k n = b.nst n := by simp [Graph.view, hb]
  rw [hv]
  cases b with
  | static l =>
    cases k with
    | dyn l p => exact absurd (Graph.fits_of_layerAt? hb) id
    | static i =>
    simp only [BaseLayer.getRemovedNodes, Layer.getRemovedNodes, BaseLayer.nst, List.mem_map, List.mem_filter, decide_eq_true_eq, Prod.exists,
      LayerKey.dynamic, true_and]
    constructor
    · rintro ⟨a, s, ⟨h1, h2⟩, rfl⟩
      rw [OMap.mem_toList.1 h1]
      rcases h2 with h2 | h2 <;> simp [h2]
    · rintro (hh | hh)
      · exact ⟨n, _, ⟨OMap.mem_toList.2 hh, .inl rfl⟩, rfl⟩
      · exact ⟨n, _, ⟨OMap.mem_toList.2 hh, .inr rfl⟩, rfl⟩
  | dyn d =>
    cases k with
    | static l => exact absurd (Graph.fits_of_layerAt? hb) id
    | dyn l p =>
      obtain ⟨i1, i2, i3, i4, i6, i5⟩ := RV.info h (.dyn l p) (BaseLayer.info (.dyn d)) (by simp [Graph.view, hb])
      simp only [BaseLayer.info] at i2 i6
      simp only [BaseLayer.getRemovedNodes, DynLayer.getRemovedNodes, BaseLayer.nst, List.mem_map, List.mem_filter, decide_eq_true_eq, Prod.exists,
        LayerKey.dynamic, Bool.true_eq_false, false_and, or_false]
      constructor
      · rintro ⟨a, s, ⟨h1, h2⟩, rfl⟩
        have hf := OMap.mem_toList.1 h1
        have hlt := i6 a (by simp [OMap.contains, hf])
        rw [if_pos (Prefix.isMatch_makeId _ hlt), Prefix.index_makeId _ _ hlt, hf, h2]
      · intro hh
        by_cases hm : d.pre.isMatch n = true
        · rw [if_pos hm] at hh
          exact ⟨_, _, ⟨OMap.mem_toList.2 hh, rfl⟩, Prefix.makeId_index hm⟩
        · rw [if_neg hm] at hh; cases hh

theorem layer_of_st {k : LayerKey} {n : NodeId} {s : NodeStatus} (h : g.view.st k n = some s) : ∃ b, g.layerAt? k = some b := by
  simp only [Graph.view, Option.bind_eq_some_iff] at h
  obtain ⟨b, hb, -⟩ := h; exact ⟨b, hb⟩

theorem R.mem_new (h : R g σ) (clear : Bool) (n : NodeId) :
    n ∈ (g.getNewNodes clear).2 ↔ ∃ k, g.view.st k n = some .new := by
  rw [Graph.getNewNodes, Graph.mem_visit]
  constructor
  · rintro ⟨k, b, hb, hx⟩; exact ⟨k, (h.mem_layer_new hb clear n).1 hx⟩
  · rintro ⟨k, hk⟩
    obtain ⟨b, hb⟩ := layer_of_st hk
    exact ⟨k, b, hb, (h.mem_layer_new hb clear n).2 hk⟩

theorem R.mem_removed (h : R g σ) (clear : Bool) (n : NodeId) :
    n ∈ (g.getRemovedNodes clear).2 ↔ ∃ k, g.view.st k n = some .deleted ∨ (k.dynamic = false ∧ g.view.st k n = some .merged) := by
  rw [Graph.getRemovedNodes, Graph.mem_visit]
  constructor
  · rintro ⟨k, b, hb, hx⟩; exact ⟨k, (h.mem_layer_removed hb clear n).1 hx⟩
  · rintro ⟨k, hk⟩
    obtain ⟨b, hb⟩ : ∃ b, g.layerAt? k = some b := by
      rcases hk with hk | hk
      · exact layer_of_st hk
      · exact layer_of_st hk.2
    exact ⟨k, b, hb, (h.mem_layer_removed hb clear n).2 hk⟩

/-- a node with status NEW is present in that layer -/
theorem R.new_key (h : R g σ) {k : LayerKey} {n : NodeId} (hn : g.view.st k n = some .new) : σ.key? n = some k := by
  have := RV.live h k n
  rw [hn, RV.hasN_eq h] at this
  exact of_decide_eq_true this.symm

theorem BaseLayer.nodup_new (b : BaseLayer) (clear : Bool)
    (hsmall : ∀ d, b = .dyn d → ∀ i, d.status.contains i = true → i < 2 ^ 32) : (b.getNewNodes clear).2.Nodup := by
  cases b with
  | static l =>
    simp only [getNewNodes, Layer.getNewNodes]
    exact (List.Sublist.map _ List.filter_sublist).nodup (OMap.keys_nodup l.status)
  | dyn d =>
    simp only [getNewNodes, DynLayer.getNewNodes]
    have hnd : ((d.status.toList.filter (fun e => decide (e.2 = .new))).map Prod.fst).Nodup :=
      (List.Sublist.map _ List.filter_sublist).nodup (OMap.keys_nodup d.status)
    rw [List.Nodup, List.pairwise_map] at hnd ⊢
    refine List.Pairwise.imp_of_mem ?_ hnd
    intro a b ha hb hab e
    have ha' := hsmall d rfl a.1 (by simp [OMap.contains, OMap.mem_toList.1 (show (a.1, a.2) ∈ _ from (List.mem_filter.1 ha).1)])
    have hb' := hsmall d rfl b.1 (by simp [OMap.contains, OMap.mem_toList.1 (show (b.1, b.2) ∈ _ from (List.mem_filter.1 hb).1)])
    apply hab
    rw [← Prefix.index_makeId d.pre d.pre ha', e, Prefix.index_makeId d.pre d.pre hb']

/-- no id is reported twice as new -/
theorem R.nodup_new (h : R g σ) (clear : Bool) : (g.getNewNodes clear).2.Nodup := by
  apply Graph.nodup_visit
  · intro k b hb
    apply BaseLayer.nodup_new
    rintro d rfl
    cases k with
    | static l => exact absurd (Graph.fits_of_layerAt? hb) id
    | dyn l p =>
      obtain ⟨i1, i2, i3, i4, i6, i5⟩ := RV.info h (.dyn l p) (BaseLayer.info (.dyn d)) (by simp [Graph.view, hb])
      exact i6
  · intro k k' b b' hb hb' x hx hx'
    have h1 := h.new_key ((h.mem_layer_new hb clear x).1 hx)
    have h2 := h.new_key ((h.mem_layer_new hb' clear x).1 hx')
    rw [h1] at h2; exact Option.some.inj h2

/-! ## Edge change logs -/

/-- Rewriting edge statuses. -/
theorem R.mapEdgeStatus {g g' : Graph} {σ : Spec} (h : R g σ) (f : EdgeStatus → Option EdgeStatus)
    (hf : ∀ s, EdgeStatus.live (f s) = EdgeStatus.live (some s))
    (h1 : g'.view.layerIds = g.view.layerIds) (h2 : g'.view.mesh = g.view.mesh) (h3 : g'.view.lookup = g.view.lookup)
    (h4 : g'.view.node = g.view.node) (h5 : g'.view.st = g.view.st)
    (h6 : ∀ c, (g'.view.ec c).edges = (g.view.ec c).edges ∧ (g'.view.ec c).stale = (g.view.ec c).stale ∧
      ∀ key, (g'.view.ec c).status.find? key = ((g.view.ec c).status.find? key).bind f)
    (h7 : g'.view.info = g.view.info) : R g' σ := by
  refine ⟨h1.trans h.layerIds, h2.trans h.mesh, ?_, ?_, ?_, ?_, ?_, ?_⟩
  · rw [h3]; exact h.lookup
  · rw [h4]; exact h.node
  · rw [h4, h5]; exact h.live
  · intro c
    obtain ⟨a1, a2, a3⟩ := h6 c
    refine ⟨by rw [a1]; exact (h.ec c).edges, ?_, by rw [a2]; exact (h.ec c).stale⟩
    intro key
    rw [a1, a3, ← (h.ec c).status key]
    cases (g.view.ec c).status.find? key with
    | none => rfl
    | some s => exact hf s
  · rw [h7]; exact h.has
  · rw [h7]; exact h.info

/-- what `getNewEdges` does to a status -/
def seenE (clear : Bool) (s : EdgeStatus) : Option EdgeStatus := if clear ∧ s = .new then some .visible else some s
/-- what `getRemovedEdges` does to a status -/
def forgetE (clear : Bool) (s : EdgeStatus) : Option EdgeStatus := if clear ∧ s = .deleted then none else some s

theorem EdgeContainer.status_getNew (c : EdgeContainer) (clear : Bool) (key : EdgeKey) :
    (c.getNew clear).1.status.find? key = (c.status.find? key).bind (seenE clear) := by
  simp only [getNew]
  cases clear with
  | false => simp only [Bool.false_eq_true, if_false]; cases c.status.find? key <;> simp [seenE, *]
  | true =>
    simp only [if_true, OMap.find?_map]
    cases c.status.find? key with
    | none => rfl
    | some s => cases s <;> simp [seenE]

theorem EdgeContainer.status_getRemoved (c : EdgeContainer) (clear : Bool) (key : EdgeKey) :
    (c.getRemoved clear).1.status.find? key = (c.status.find? key).bind (forgetE clear) := by
  simp only [getRemoved]
  cases clear with
  | false => simp only [Bool.false_eq_true, if_false]; cases c.status.find? key <;> simp [forgetE, *]
  | true =>
    simp only [if_true, OMap.find?_filter]
    cases c.status.find? key with
    | none => rfl
    | some s => cases s <;> simp [forgetE]

theorem EdgeContainer.mem_getNew (c : EdgeContainer) (clear : Bool) (key : EdgeKey) :
    key ∈ (c.getNew clear).2 ↔ c.status.find? key = some .new := by
  simp only [getNew, List.mem_map, List.mem_filter, decide_eq_true_eq, Prod.exists]
  constructor
  · rintro ⟨a, s, ⟨h1, h2⟩, rfl⟩; rw [OMap.mem_toList.1 h1, h2]
  · intro hh; exact ⟨key, _, ⟨OMap.mem_toList.2 hh, rfl⟩, rfl⟩

theorem EdgeContainer.mem_getRemoved (c : EdgeContainer) (clear : Bool) (key : EdgeKey) :
    key ∈ (c.getRemoved clear).2 ↔ c.status.find? key = some .deleted := by
  simp only [getRemoved, List.mem_map, List.mem_filter, decide_eq_true_eq, Prod.exists]
  constructor
  · rintro ⟨a, s, ⟨h1, h2⟩, rfl⟩; rw [OMap.mem_toList.1 h1, h2]
  · intro hh; exact ⟨key, _, ⟨OMap.mem_toList.2 hh, rfl⟩, rfl⟩

theorem EdgeContainer.nodup_getNew (c : EdgeContainer) (clear : Bool) : (c.getNew clear).2.Nodup :=
  (List.Sublist.map _ List.filter_sublist).nodup (OMap.keys_nodup c.status)

/-- The graph after a query `q` on every edge container. -/
def Graph.visitEdges (g : Graph) (q : EdgeContainer → EdgeContainer × List EdgeKey) : Graph × List EdgeKey :=
  let r := g.visitLayers (fun b => (b.setEc (q b.ec).1, (q b.ec).2))
  ({ r.1 with inter := (q g.inter).1, dynInter := (q g.dynInter).1 }, r.2 ++ (q g.inter).2 ++ (q g.dynInter).2)

theorem Graph.getNewEdges_eq (g : Graph) (clear : Bool) : g.getNewEdges clear = g.visitEdges (fun c => c.getNew clear) := rfl
theorem Graph.getRemovedEdges_eq (g : Graph) (clear : Bool) :
    g.getRemovedEdges clear = g.visitEdges (fun c => c.getRemoved clear) := rfl

theorem Graph.layerAt?_visitEdges (g : Graph) (q : EdgeContainer → EdgeContainer × List EdgeKey) (k : LayerKey) :
    (g.visitEdges q).1.layerAt? k = (g.layerAt? k).map (fun b => b.setEc (q b.ec).1) := by
  have : (g.visitEdges q).1.layerAt? k = (g.visitLayers (fun b => (b.setEc (q b.ec).1, (q b.ec).2))).1.layerAt? k := by
    cases k <;> rfl
  rw [this, Graph.layerAt?_visit g ⟨fun l => ⟨_, rfl⟩, fun d => ⟨_, rfl⟩⟩]

/-- where no container exists, the default one is empty -/
theorem Graph.visitEdges_view (g : Graph) (q : EdgeContainer → EdgeContainer × List EdgeKey) (hq : (q {}).1 = {}) :
    (g.visitEdges q).1.view = { g.view with ec := fun c => (q (g.view.ec c)).1 } := by
  have hl := g.layerAt?_visitEdges q
  simp only [Graph.view, View.mk.injEq]
  refine ⟨rfl, rfl, rfl, ?_, ?_, ?_, ?_⟩
  · funext k n; rw [hl]; cases g.layerAt? k <;> simp
  · funext k n; rw [hl]; cases g.layerAt? k <;> simp
  · funext c
    cases c with
    | within k =>
      simp only [Graph.ecAt?, hl]
      cases g.layerAt? k with
      | none => simpa using hq.symm
      | some b => simp
    | across b => cases b <;> rfl
  · funext k; rw [hl]; cases g.layerAt? k <;> simp

theorem Graph.mem_visitEdges (g : Graph) (q : EdgeContainer → EdgeContainer × List EdgeKey) (hq : (q {}).2 = []) (key : EdgeKey) :
    key ∈ (g.visitEdges q).2 ↔ ∃ c, key ∈ (q (g.view.ec c)).2 := by
  simp only [visitEdges, List.mem_append, Graph.mem_visit]
  constructor
  · rintro ((⟨k, b, hb, hx⟩ | hx) | hx)
    · exact ⟨.within k, by simpa [Graph.view, Graph.ecAt?, hb] using hx⟩
    · exact ⟨.across false, hx⟩
    · exact ⟨.across true, hx⟩
  · rintro ⟨c, hx⟩
    cases c with
    | within k =>
      simp only [Graph.view, Graph.ecAt?] at hx
      cases hb : g.layerAt? k with
      | none => simp [hb, hq] at hx
      | some b => exact .inl (.inl ⟨k, b, hb, by simpa [hb] using hx⟩)
    | across b =>
      cases b
      · exact .inl (.inr hx)
      · exact .inr hx

theorem R.getNewEdges (h : R g σ) (clear : Bool) :
    R (g.getNewEdges clear).1 σ ∧
    (g.getNewEdges clear).1.view = { g.view with ec := fun c => ((g.view.ec c).getNew clear).1 } := by
  rw [Graph.getNewEdges_eq]
  have hv := g.visitEdges_view (fun c => c.getNew clear) (by cases clear <;> rfl)
  refine ⟨h.mapEdgeStatus (seenE clear) (by intro s; cases clear <;> cases s <;> rfl) ?_ ?_ ?_ ?_ ?_ ?_ ?_, hv⟩ <;> rw [hv]
  intro c
  exact ⟨rfl, rfl, fun key => EdgeContainer.status_getNew _ _ _⟩

theorem R.getRemovedEdges (h : R g σ) (clear : Bool) :
    R (g.getRemovedEdges clear).1 σ ∧
    (g.getRemovedEdges clear).1.view = { g.view with ec := fun c => ((g.view.ec c).getRemoved clear).1 } := by
  rw [Graph.getRemovedEdges_eq]
  have hv := g.visitEdges_view (fun c => c.getRemoved clear) (by cases clear <;> rfl)
  refine ⟨h.mapEdgeStatus (forgetE clear) (by intro s; cases clear <;> cases s <;> rfl) ?_ ?_ ?_ ?_ ?_ ?_ ?_, hv⟩ <;> rw [hv]
  intro c
  exact ⟨rfl, rfl, fun key => EdgeContainer.status_getRemoved _ _ _⟩

theorem R.mem_newEdges (g : Graph) (clear : Bool) (key : EdgeKey) :
    key ∈ (g.getNewEdges clear).2 ↔ ∃ c, (g.view.ec c).status.find? key = some .new := by
  rw [Graph.getNewEdges_eq, Graph.mem_visitEdges _ _ (by cases clear <;> rfl)]
  simp only [EdgeContainer.mem_getNew]

theorem R.mem_removedEdges (g : Graph) (clear : Bool) (key : EdgeKey) :
    key ∈ (g.getRemovedEdges clear).2 ↔ ∃ c, (g.view.ec c).status.find? key = some .deleted := by
  rw [Graph.getRemovedEdges_eq, Graph.mem_visitEdges _ _ (by cases clear <;> rfl)]
  simp only [EdgeContainer.mem_getRemoved]

/-- an edge with status NEW is present at that place -/
theorem R.newEdge_place (h : R g σ) {c : Place} {key : EdgeKey} (hn : (g.view.ec c).status.find? key = some .new) :
    σ.edges.contains key = true ∧ σ.placeOf key = some c := by
  have := (RV.ec h c).status key
  rw [hn] at this
  have h2 := RV.hasE_eq h c key
  rw [View.hasE, ← this] at h2
  have h3 : (σ.edges.contains key && decide (σ.placeOf key = some c)) = true := h2.symm
  rw [Bool.and_eq_true] at h3
  exact ⟨h3.1, of_decide_eq_true h3.2⟩

theorem R.nodup_newEdges (h : R g σ) (clear : Bool) : (g.getNewEdges clear).2.Nodup := by
  have key : ∀ c c' x, x ∈ ((g.view.ec c).getNew clear).2 → x ∈ ((g.view.ec c').getNew clear).2 → c = c' := by
    intro c c' x hx hx'
    have h1 := (h.newEdge_place ((EdgeContainer.mem_getNew _ _ _).1 hx)).2
    have h2 := (h.newEdge_place ((EdgeContainer.mem_getNew _ _ _).1 hx')).2
    rw [h1] at h2; exact Option.some.inj h2
  have hw : ∀ k b, g.layerAt? k = some b → g.view.ec (.within k) = b.ec := by
    intro k b hb; simp [Graph.view, Graph.ecAt?, hb]
  simp only [Graph.getNewEdges]
  rw [List.nodup_append, List.nodup_append]
  refine ⟨⟨?_, EdgeContainer.nodup_getNew _ _, ?_⟩, EdgeContainer.nodup_getNew _ _, ?_⟩
  · apply Graph.nodup_visit
    · intro k b hb; exact EdgeContainer.nodup_getNew b.ec clear
    · intro k k' b b' hb hb' x hx hx'
      have := key (.within k) (.within k') x (by rw [hw k b hb]; exact hx) (by rw [hw k' b' hb']; exact hx')
      cases this; rfl
  · intro x hx y hy e; subst e
    obtain ⟨k, b, hb, hx⟩ := (Graph.mem_visit _ _ _).1 hx
    have := key (.within k) (.across false) x (by rw [hw k b hb]; exact hx) hy
    cases this
  · intro x hx y hy e; subst e
    rcases List.mem_append.1 hx with hx | hx
    · obtain ⟨k, b, hb, hx⟩ := (Graph.mem_visit _ _ _).1 hx
      have := key (.within k) (.across true) x (by rw [hw k b hb]; exact hx) hy
      cases this
    · have := key (.across false) (.across true) x hx hy
      cases this

/-! ## Stale marks -/

theorem Graph.markEdgesAsStale_view (g : Graph) :
    g.markEdgesAsStale.view = { g.view with ec := fun c => (g.view.ec c).setStale } := by
  have h : ∀ k, g.markEdgesAsStale.layerAt? k = (g.layerAt? k).map (fun b => b.setEc b.ec.setStale) := by
    intro k
    cases k with
    | static l =>
      simp only [layerAt?, markEdgesAsStale, OMap.find?_map, Option.map_map]
      cases g.layers.find? l <;> rfl
    | dyn l p =>
      simp only [layerAt?, markEdgesAsStale, dynLayer?, OMap.find?_map]
      cases g.dyns.find? l with
      | none => rfl
      | some m =>
        simp only [Option.map_some, Option.bind_some, OMap.find?_map, Option.map_map]
        cases m.find? p <;> rfl
  simp only [Graph.view, View.mk.injEq]
  refine ⟨rfl, rfl, rfl, ?_, ?_, ?_, ?_⟩
  · funext k n; rw [h]; cases g.layerAt? k <;> simp
  · funext k n; rw [h]; cases g.layerAt? k <;> simp
  · funext c
    cases c with
    | within k =>
      simp only [Graph.ecAt?, h]
      cases g.layerAt? k with
      | none => rfl
      | some b => simp
    | across b => cases b <;> rfl
  · funext k; rw [h]; cases g.layerAt? k <;> simp

theorem R.markStale (h : R g σ) : R g.markEdgesAsStale σ.markStale := by
  unfold R
  rw [Graph.markEdgesAsStale_view]
  refine ⟨h.layerIds, h.mesh, h.lookup, h.node, h.live, ?_, h.has, h.info⟩
  intro c
  refine ⟨(h.ec c).edges, (h.ec c).status, ?_⟩
  intro key
  show (OMap.map _ _).find? key = some true ↔ _
  have e1 : σ.markStale.marks.find? key = if σ.edges.contains key then σ.placeOf key else none := by
    simp only [Spec.markStale, OMap.find?_map, OMap.find?_filter]
    cases hq : σ.edges.find? key with
    | none => simp [OMap.contains, hq]
    | some e => cases hp : σ.placeOf key <;> simp [OMap.contains, hq]
  rw [e1, OMap.find?_map]
  have h2 := RV.hasE_eq h c key
  rw [View.hasE] at h2
  cases hf : (g.view.ec c).edges.find? key with
  | none =>
    rw [hf] at h2
    have h3 : (σ.edges.contains key && decide (σ.placeOf key = some c)) = false := h2.symm
    simp only [Option.map_none]
    constructor
    · intro hh; cases hh
    · intro hh
      split at hh
      · rename_i hc; rw [hc, hh] at h3; simp at h3
      · cases hh
  | some e =>
    rw [hf] at h2
    have h3 : (σ.edges.contains key && decide (σ.placeOf key = some c)) = true := h2.symm
    rw [Bool.and_eq_true] at h3
    simp only [Option.map_some, true_iff]
    rw [if_pos h3.1]; exact of_decide_eq_true h3.2

theorem SWF.markStale (hw : SWF σ) : SWF σ.markStale where
  edge := hw.edge
  node := hw.node
  dyn := hw.dyn
  stamps := hw.stamps
  marks key c h := by
    simp only [Spec.markStale, OMap.find?_map, OMap.find?_filter] at h
    cases he : σ.edges.find? key with
    | none => simp [he] at h
    | some e => exact hw.key_of he

theorem SWF.sweep (hw : SWF σ) : SWF σ.sweep := hw.dropEdges (fun k => σ.marks.contains k)

theorem foldRes_if {α S : Type} (f : S → α → Res S) (P : α → Bool) (L : List α) (s : S) :
    foldRes (fun s a => if P a = true then f s a else .ok s) s L = foldRes f s (L.filter P) := by
  induction L generalizing s with
  | nil => rfl
  | cons a L ih =>
    by_cases h : P a = true
    · simp only [foldRes_cons, h, if_true, List.filter_cons_of_pos]
      cases f s a <;> simp [ih]
    · simp [h, ih]

/-- Removing the marked edges of one container. -/
theorem R.removeStaleEdges (h : R g σ) (hw : SWF σ) (m : OMap EdgeKey Bool)
    (hm : ∀ key, m.find? key = some true → key = EdgeKey.of key.k1 key.k2) :
    ∃ g', g.removeStaleEdges m = .ok g' ∧ Adv .deleted g.view g'.view (σ.dropEdges (fun key => decide (m.find? key = some true))) := by
  have hrw : g.removeStaleEdges m = foldRes (fun g (e : EdgeKey × Bool) => g.removeEdge e.1.k1 e.1.k2 >>= fun r => .ok r.1) g
      (m.toList.filter (fun e => e.2)) := by
    rw [← foldRes_if]; rfl
  rw [hrw]
  have hmem : ∀ e ∈ m.toList.filter (fun e => e.2), m.find? e.1 = some true := by
    intro e he
    obtain ⟨h1, h2⟩ := List.mem_filter.1 he
    rw [OMap.mem_toList.1 (show (e.1, e.2) ∈ m.toList from h1)]
    exact congrArg some h2
  obtain ⟨g', e, A⟩ := fold_erase (fun g (e : EdgeKey × Bool) => g.removeEdge e.1.k1 e.1.k2 >>= fun r => .ok r.1) (fun e => e.1)
    .deleted (σ0 := σ) (m.toList.filter (fun e => e.2)) (by
      have := m.keys_nodup
      rw [OMap.keys, List.Nodup, List.pairwise_map] at this
      exact this.filter _) (by
      intro g1 σ1 e he h1 hw1 _ _
      have hk := hm e.1 (hmem e he)
      obtain ⟨g2, e2, A2⟩ := R.removeEdge h1 hw1 e.1.k1 e.1.k2 .deleted
      refine ⟨g2, by simp [e2], ?_⟩
      have : (σ1.removeEdge e.1.k1 e.1.k2).1 = σ1.eraseEdge e.1 := by
        cases hc : σ1.edges.contains e.1 with
        | true =>
          have : σ1.hasEdge e.1.k1 e.1.k2 = true := by rw [Spec.hasEdge, ← hk]; exact hc
          simp only [Spec.removeEdge, this, if_true]; rw [← hk]
        | false =>
          have : σ1.hasEdge e.1.k1 e.1.k2 = false := by rw [Spec.hasEdge, ← hk]; exact hc
          simp only [Spec.removeEdge, this, Bool.false_eq_true, if_false]
          exact (Spec.eraseEdge_of_none hc).symm
      rw [← this]; exact A2) g h hw
  refine ⟨g', e, ?_⟩
  have : (fun key => (m.toList.filter (fun e => e.2)).any (fun a => a.1 == key)) = (fun key => decide (m.find? key = some true)) := by
    funext key
    rw [Bool.eq_iff_iff, List.any_eq_true, decide_eq_true_eq]
    constructor
    · rintro ⟨e, he, hk⟩
      rw [← eq_of_beq hk]; exact hmem e he
    · intro hk
      exact ⟨(key, true), List.mem_filter.2 ⟨OMap.mem_toList.2 hk, rfl⟩, by simp⟩
  rw [← this]; exact A

/-- Removing the edges marked at each of a list of places. -/
theorem R.sweepPlaces (L : List Place) : ∀ (g : Graph) (σ : Spec), R g σ → SWF σ →
    ∃ g', foldRes (fun g c => match g.ecAt? c with | none => Res.ok g | some x => g.removeStaleEdges x.stale) g L = .ok g' ∧
      Adv .deleted g.view g'.view (σ.dropEdges (fun key => L.any (fun c => decide (σ.marks.find? key = some c)))) := by
  induction L with
  | nil =>
    intro g σ h hw
    refine ⟨g, rfl, ?_⟩
    have : σ.dropEdges (fun key => ([] : List Place).any (fun c => decide (σ.marks.find? key = some c))) = σ := by
      apply Spec.ext' <;> try rfl
      apply OMap.ext; intro key; rw [Spec.find?_dropEdges]; simp
    rw [this]; exact Adv.refl _ h
  | cons c L ih =>
    intro g σ h hw
    have hfirst : ∃ g1, (match g.ecAt? c with | none => Res.ok g | some x => g.removeStaleEdges x.stale) = .ok g1 ∧
        Adv .deleted g.view g1.view (σ.dropEdges (fun key => decide (σ.marks.find? key = some c))) := by
      have hst := (RV.ec h c).stale
      cases hc : g.ecAt? c with
      | none =>
        refine ⟨g, rfl, ?_⟩
        have : σ.dropEdges (fun key => decide (σ.marks.find? key = some c)) = σ := by
          apply Spec.ext' <;> try rfl
          apply OMap.ext; intro key; rw [Spec.find?_dropEdges, if_neg]
          intro hh
          have := (hst key).2 (of_decide_eq_true hh)
          simp [Graph.view, hc] at this
        rw [this]; exact Adv.refl _ h
      | some x =>
        have hx : ∀ key, x.stale.find? key = some true ↔ σ.marks.find? key = some c := by
          intro key; simpa [Graph.view, hc] using hst key
        obtain ⟨g1, e1, A1⟩ := h.removeStaleEdges hw x.stale (fun key hk => hw.marks key c ((hx key).1 hk))
        refine ⟨g1, e1, ?_⟩
        have : (fun key => decide (x.stale.find? key = some true)) = (fun key => decide (σ.marks.find? key = some c)) := by
          funext key; simp only [hx]
        rw [← this]; exact A1
    obtain ⟨g1, e1, A1⟩ := hfirst
    obtain ⟨g2, e2, A2⟩ := ih g1 _ A1.r (hw.dropEdges _)
    refine ⟨g2, ?_, ?_⟩
    · rw [foldRes_cons, e1]; exact e2
    · have : (σ.dropEdges (fun key => decide (σ.marks.find? key = some c))).dropEdges
          (fun key => L.any (fun c' => decide ((σ.dropEdges (fun key => decide (σ.marks.find? key = some c))).marks.find? key = some c'))) =
          σ.dropEdges (fun key => (c :: L).any (fun c => decide (σ.marks.find? key = some c))) := by
        apply Spec.ext' <;> try rfl
        apply OMap.ext; intro key
        simp only [Spec.find?_dropEdges, List.any_cons, Bool.or_eq_true]
        have : (σ.dropEdges (fun key => decide (σ.marks.find? key = some c))).marks = σ.marks := rfl
        rw [this]
        by_cases e : decide (σ.marks.find? key = some c) = true
        · simp [e]
        · simp only [e, Bool.false_eq_true, false_or, if_false]
      rw [← this]
      refine Adv.trans h A1 A2 (fun _ => rfl) (fun _ => rfl) ?_
      intro key
      simp only [Spec.contains_dropEdges]
      cases decide (σ.marks.find? key = some c) <;> simp

theorem R.sweep (h : R g σ) (hw : SWF σ) :
    ∃ g', g.removeAllStaleEdges = .ok g' ∧ Adv .deleted g.view g'.view σ.sweep := by
  have hmap : ∀ {α S T : Type} (f : S → T → Res S) (φ : α → T) (L : List α) (s : S),
      foldRes (fun s a => f s (φ a)) s L = foldRes f s (L.map φ) := by
    intro α S T f φ L
    induction L with
    | nil => intro s; rfl
    | cons a L ih => intro s; simp only [List.map_cons, foldRes_cons]; cases f s (φ a) <;> simp [ih]
  let F : Graph → Place → Res Graph := fun g c => match g.ecAt? c with | none => Res.ok g | some x => g.removeStaleEdges x.stale
  let L1 : List Place := g.layers.keys.map (fun l => .within (.static l))
  obtain ⟨g1, e1, A1⟩ := R.sweepPlaces L1 g σ h hw
  let L2 : List Place := (g1.dyns.toList.flatMap (fun e => e.2.keys.map (fun p => (e.1, p)))).map (fun e => .within (.dyn e.1 e.2)) ++
    [.across false, .across true]
  generalize hσ1 : σ.dropEdges (fun key => L1.any (fun c => decide (σ.marks.find? key = some c))) = σ1 at A1
  have hm1 : σ1.marks = σ.marks := by rw [← hσ1]; rfl
  have hw1 : SWF σ1 := by rw [← hσ1]; exact hw.dropEdges _
  obtain ⟨g2, e2, A2⟩ := R.sweepPlaces L2 g1 σ1 A1.r hw1
  refine ⟨g2, ?_, ?_⟩
  · have q1 : foldRes Graph.removeStaleStatic g g.layers.keys
        = .ok g1 := by
      rw [← e1]
      show _ = foldRes F g (g.layers.keys.map (fun l => Place.within (.static l)))
      rw [← hmap F]
      congr 1
      funext g l
      show _ = match g.ecAt? (.within (.static l)) with | none => Res.ok g | some x => g.removeStaleEdges x.stale
      simp only [Graph.ecAt?, Graph.layerAt?, Graph.removeStaleStatic]
      cases g.layers.find? l <;> rfl
    have q2 : ∀ (L : List (LayerId × Prefix)) (g : Graph), foldRes Graph.removeStaleDyn g L
        = foldRes F g (L.map (fun e => Place.within (.dyn e.1 e.2))) := by
      intro L g
      rw [← hmap F]
      congr 1
      funext g e
      show _ = match g.ecAt? (.within (.dyn e.1 e.2)) with | none => Res.ok g | some x => g.removeStaleEdges x.stale
      simp only [Graph.ecAt?, Graph.layerAt?, Graph.removeStaleDyn]
      cases g.dynLayer? e.1 e.2 <;> rfl
    simp only [Graph.removeAllStaleEdges]
    rw [q1]
    simp only [Res.bind_ok]
    rw [q2]
    have e2' : foldRes F g1 L2 = .ok g2 := e2
    rw [show L2 = _ from rfl, foldRes_append] at e2'
    rw [← e2']
    cases foldRes F g1 ((g1.dyns.toList.flatMap (fun e => e.2.keys.map (fun p => (e.1, p)))).map (fun e => Place.within (.dyn e.1 e.2))) with
    | throw e => rfl
    | ub => rfl
    | ok g3 =>
      simp only [Res.bind_ok, foldRes_cons, foldRes_nil]
      show _ = (g3.removeStaleEdges g3.inter.stale >>= fun s' => (s'.removeStaleEdges s'.dynInter.stale >>= fun s'' => Res.ok s''))
      cases g3.removeStaleEdges g3.inter.stale with
      | throw e => rfl
      | ub => rfl
      | ok g4 => simp only [Res.bind_ok]; cases g4.removeStaleEdges g4.dynInter.stale <;> rfl
  · have hfin : σ1.dropEdges (fun key => L2.any (fun c => decide (σ1.marks.find? key = some c))) = σ.sweep := by
      apply Spec.ext'
      case h4 =>
        apply OMap.ext; intro key
        rw [← hσ1, Spec.find?_dropEdges, Spec.find?_dropEdges]
        have : σ.sweep = σ.dropEdges (fun k => σ.marks.contains k) := rfl
        rw [this, Spec.find?_dropEdges, show (σ.dropEdges (fun key => L1.any (fun c => decide (σ.marks.find? key = some c)))).marks = σ.marks from rfl]
        cases hm : σ.marks.find? key with
        | none => simp [OMap.contains, hm]
        | some c =>
          rw [if_pos (show σ.marks.contains key = true by simp [OMap.contains, hm])]
          have hin : c ∈ L1 ∨ c ∈ L2 := by
            cases c with
            | across b => cases b <;> simp [L2]
            | within k =>
              have hs := ((RV.ec h (.within k)).stale key).2 hm
              cases hb : g.layerAt? k with
              | none => simp [Graph.view, Graph.ecAt?, hb] at hs
              | some b =>
                cases k with
                | static l =>
                  left
                  simp only [Graph.layerAt?, Option.map_eq_some_iff] at hb
                  obtain ⟨x, hx, -⟩ := hb
                  exact List.mem_map.2 ⟨l, OMap.mem_keys.2 (by simp [OMap.contains, hx]), rfl⟩
                | dyn l p =>
                  right
                  have hk : σ.hasKey (.dyn l p) = true := by
                    rw [← RV.has h]; simp [Graph.view, hb]
                  have hk1 : (g1.view.info (.dyn l p)).isSome = true := by
                    rw [A1.r.has]; rw [← hσ1]; exact hk
                  simp only [Graph.view, Option.isSome_map, Graph.layerAt?, Graph.dynLayer?] at hk1
                  obtain ⟨d, hd⟩ := Option.isSome_iff_exists.1 hk1
                  obtain ⟨m, hm1, hd⟩ := Option.bind_eq_some_iff.1 hd
                  refine List.mem_append_left _ (List.mem_map.2 ⟨(l, p), List.mem_flatMap.2 ⟨(l, m), OMap.mem_toList.2 hm1, ?_⟩, rfl⟩)
                  exact List.mem_map.2 ⟨p, OMap.mem_keys.2 (by simp [OMap.contains, hd]), rfl⟩
          have : ∀ L : List Place, c ∈ L → L.any (fun c' => decide (some c = some c')) = true := by
            intro L hL; exact List.any_eq_true.2 ⟨c, hL, by simp⟩
          rcases hin with hin | hin
          · rw [this _ hin]; split <;> rfl
          · rw [this _ hin]; rfl
      all_goals (rw [← hσ1]; rfl)
    rw [hfin] at A2
    refine Adv.trans h A1 A2 (fun _ => by rw [← hσ1]; rfl) (fun _ => by rw [← hσ1]; rfl) ?_
    intro key
    rw [← hσ1]
    have : σ.sweep = σ.dropEdges (fun k => σ.marks.contains k) := rfl
    rw [this]
    simp only [Spec.contains_dropEdges]
    by_cases hL1 : L1.any (fun c' => decide (σ.marks.find? key = some c')) = true
    · right
      have hc : σ.marks.contains key = true := by
        obtain ⟨c, -, hc⟩ := List.any_eq_true.1 hL1
        simp [OMap.contains, of_decide_eq_true hc]
      simp [hc, hL1]
    · left; simp [hL1]

end
end Verif
