import Verif.Lemmas.GraphIO
import Verif.Refine.SpecFacts
import Verif.Refine.SpecStep
import Verif.Refine.Marks
/-! # What a synchronisation history does to the abstract graph -/

namespace Verif
namespace Spec

/-- some graph stores `τ` -/
def Good (τ : Spec) : Prop := SWF τ ∧ ∃ g, R g τ

theorem Good.step {τ : Spec} (h : τ.Good) (op : Op) (hok : op.ok τ = true) : (τ.step op).1.Good := by
  obtain ⟨hw, g, hr⟩ := h
  obtain ⟨g', _, _, _, h1, h2, _⟩ := hr.step hw op hok
  exact ⟨h2, g', h1⟩

/-! ## Nodes -/

/-- The nodes of a message fit the receiver. -/
structure Fits (τ : Spec) (N : List (NodeId × NodeInfo)) : Prop where
  layer : ∀ e ∈ N, τ.layerIds.contains e.2.key.layer = true
  valid : ∀ e ∈ N, e.2.key.layer ≠ UNKNOWN_LAYER
  kind : ∀ e ∈ N, (e.2.stamp = none ∧ e.2.key = .static e.2.key.layer) ∨
    (e.2.stamp.isSome = true ∧ e.2.key = .dyn e.2.key.layer (Prefix.fromId e.1) ∧ (Prefix.fromId e.1).plain = true ∧
      (Prefix.fromId e.1).index e.1 + 1 < 2 ^ 32)
  shared : ∀ e ∈ N, ∀ j, τ.nodes.find? e.1 = some j → j.key = e.2.key ∧ j.stamp = e.2.stamp
  fresh : ∀ e ∈ N, ∀ m j, τ.nodes.find? m = some j → e.2.key.dynamic = true → j.key = e.2.key → j.stamp = e.2.stamp → m = e.1
  ids : (N.map Prod.fst).Nodup
  stamps : ∀ e ∈ N, ∀ e' ∈ N, e.2.key.dynamic = true → e.2.key = e'.2.key → e.2.stamp = e'.2.stamp → e.1 = e'.1

/-- what a message keeps of a node -/
abbrev keptInfo (F : Fmt) (e : NodeId × NodeInfo) : NodeInfo := e.2.keptAs F e.1

variable {F : Fmt}

theorem Fits.step {τ : Spec} {e : NodeId × NodeInfo} {N : List (NodeId × NodeInfo)} (h : Fits τ (e :: N)) :
    (nodeOp F e).ok τ = true ∧ (τ.step (nodeOp F e)).1.nodes = τ.nodes.insert e.1 (keptInfo F e) ∧
    (τ.step (nodeOp F e)).1.edges = τ.edges ∧ (τ.step (nodeOp F e)).1.marks = τ.marks ∧ (τ.step (nodeOp F e)).1.mesh = τ.mesh ∧
    (τ.step (nodeOp F e)).1.layerIds = τ.layerIds := by
  have hl := h.layer e List.mem_cons_self
  have hv := h.valid e List.mem_cons_self
  simp only [nodeOp, Op.ok, Spec.step, Spec.ans, Spec.addOrUpdateNode, hl, Bool.not_true, Bool.false_or, Bool.false_eq_true, if_false]
  cases hc : τ.nodes.find? e.1 with
  | some j =>
    have hcc : τ.nodes.contains e.1 = true := OMap.contains_eq_true.2 ⟨j, hc⟩
    obtain ⟨h1, h2⟩ := h.shared e List.mem_cons_self j hc
    simp only [hcc, Bool.true_or, if_true, setNodeAttrs, hc, true_and, and_self, and_true]
    congr 1
    unfold keptInfo NodeInfo.keptAs
    rw [← h1, ← h2]
  | none =>
    have hcc : τ.nodes.contains e.1 = false := OMap.contains_eq_false.2 hc
    simp only [hcc, Bool.false_or, Bool.false_eq_true, if_false]
    rcases h.kind e List.mem_cons_self with ⟨h1, h2⟩ | ⟨h1, h2, h3, h4⟩
    · rw [h1]
      simp only [emplaceNode, hcc, hl, Bool.not_true, Bool.false_eq_true, if_false, addNode, and_self, and_true, hv, ne_eq, not_false_eq_true,
        decide_true, true_and]
      unfold keptInfo NodeInfo.keptAs
      rw [← h2, ← h1]
    · obtain ⟨t, ht⟩ := Option.isSome_iff_exists.1 h1
      rw [ht]
      simp only [emplacePrev, hcc, Bool.false_eq_true, if_false, addNode, and_self, and_true]
      constructor
      · have hs : τ.hasStamp (.dyn e.2.key.layer (Prefix.fromId e.1)) t = false := by
          rw [Bool.eq_false_iff]
          intro hs
          obtain ⟨m, j, hj, hk, hst⟩ := Spec.hasStamp_iff.1 hs
          have := h.fresh e List.mem_cons_self m j hj (by rw [h2]; rfl) (by rw [hk, ← h2]) (by rw [hst, ht])
          subst this
          rw [hc] at hj
          cases hj
        simp [prevOk, h3, hv, hs, h4]
      · unfold keptInfo NodeInfo.keptAs
        rw [← h2, ← ht]

theorem Fits.tail {τ τ' : Spec} {e : NodeId × NodeInfo} {N : List (NodeId × NodeInfo)} (h : Fits τ (e :: N))
    (hn : τ'.nodes = τ.nodes.insert e.1 (keptInfo F e)) (hl : τ'.layerIds = τ.layerIds) : Fits τ' N where
  layer x hx := by rw [hl]; exact h.layer x (List.mem_cons_of_mem _ hx)
  valid x hx := h.valid x (List.mem_cons_of_mem _ hx)
  kind x hx := h.kind x (List.mem_cons_of_mem _ hx)
  shared x hx j hj := by
    have hne : e.1 ≠ x.1 := by
      have := h.ids
      simp only [List.map_cons, List.nodup_cons] at this
      intro he
      exact this.1 (List.mem_map.2 ⟨x, hx, he.symm⟩)
    rw [hn, OMap.find?_insert_ne _ _ hne] at hj
    exact h.shared x (List.mem_cons_of_mem _ hx) j hj
  fresh x hx m j hj hd hk hs := by
    rw [hn, OMap.find?_insert] at hj
    split at hj
    · rename_i he
      cases hj
      rw [← he]
      exact h.stamps e List.mem_cons_self x (List.mem_cons_of_mem _ hx) (by rw [show e.2.key = x.2.key from hk]; exact hd) hk hs
    · exact h.fresh x (List.mem_cons_of_mem _ hx) m j hj hd hk hs
  ids := by have := h.ids; simp only [List.map_cons, List.nodup_cons] at this; exact this.2
  stamps x hx y hy := h.stamps x (List.mem_cons_of_mem _ hx) y (List.mem_cons_of_mem _ hy)

theorem sync_nodes {N : List (NodeId × NodeInfo)} {τ : Spec} (hg : τ.Good) (h : Fits τ N) :
    Op.okAll τ (N.map (nodeOp F)) = true ∧ (τ.after (N.map (nodeOp F))).Good ∧
    (∀ e ∈ N, (τ.after (N.map (nodeOp F))).nodes.find? e.1 = some (keptInfo F e)) ∧
    (∀ m, m ∉ N.map Prod.fst → (τ.after (N.map (nodeOp F))).nodes.find? m = τ.nodes.find? m) ∧
    (τ.after (N.map (nodeOp F))).edges = τ.edges ∧ (τ.after (N.map (nodeOp F))).marks = τ.marks ∧
    (τ.after (N.map (nodeOp F))).mesh = τ.mesh ∧ (τ.after (N.map (nodeOp F))).layerIds = τ.layerIds := by
  induction N generalizing τ with
  | nil => exact ⟨rfl, hg, by simp, by simp, rfl, rfl, rfl, rfl⟩
  | cons e N ih =>
    obtain ⟨h1, h2, h3, h4, h5, h6⟩ := h.step (F := F)
    have ht := h.tail h2 h6
    obtain ⟨i1, i2, i3, i4, i5, i6, i7, i8⟩ := ih (hg.step _ h1) ht
    simp only [List.map_cons, Op.okAll, h1, Bool.true_and, after_cons]
    have hne : e.1 ∉ N.map Prod.fst := by
      have := h.ids
      simp only [List.map_cons, List.nodup_cons] at this
      exact this.1
    refine ⟨i1, i2, ?_, ?_, i5.trans h3, i6.trans h4, i7.trans h5, i8.trans h6⟩
    · intro x hx
      rcases List.mem_cons.1 hx with rfl | hx
      · rw [i4 _ hne, h2, OMap.find?_insert_self]
      · exact i3 x hx
    · intro m hm
      simp only [List.mem_cons, not_or] at hm
      rw [i4 m hm.2, h2, OMap.find?_insert_ne _ _ (Ne.symm hm.1)]

/-! ## Removals -/

/-- No edge joins two layers with the same layer id. -/
def NoCross (τ : Spec) : Prop :=
  ∀ a b ka kb, τ.hasEdge a b = true → τ.key? a = some ka → τ.key? b = some kb → ka.layer = kb.layer → ka = kb

theorem NoCross.crossFree {τ : Spec} (h : τ.NoCross) (n : NodeId) : τ.crossFree n = true := by
  unfold Spec.crossFree
  rw [List.all_eq_true]
  intro e he
  have hm : τ.key? e.1 = some e.2.key := by simp [key?, OMap.mem_toList.1 (show (e.1, e.2) ∈ τ.nodes.toList from he)]
  cases hk : τ.key? n with
  | none => simp
  | some k =>
    by_cases h1 : τ.hasEdge n e.1 = true
    · by_cases h2 : k.layer = e.2.key.layer
      · simp [h n e.1 k e.2.key h1 hk hm h2]
      · simp [h2]
    · simp [h1]

theorem hasEdge_bridge {τ : Spec} {n a b : NodeId} (h : (τ.bridge n).hasEdge a b = true) :
    τ.hasEdge a b = true ∨ ∃ k, τ.key? a = some k ∧ τ.key? b = some k := by
  by_cases hb : τ.bridges n
  · rw [bridge_pos hb, hasEdge_edge?, edge?_addEdge] at h
    split at h
    · rename_i hh
      right
      obtain ⟨l, p, h0, h1, h2, _⟩ := hb
      rcases hh with ⟨rfl, rfl⟩ | ⟨rfl, rfl⟩
      · exact ⟨_, h1, h2⟩
      · exact ⟨_, h2, h1⟩
    · left; rw [hasEdge_edge?]; exact h
  · rw [bridge_neg hb] at h
    exact .inl h

theorem edge?_bridge {τ : Spec} {n a b : NodeId} {e : EdgeInfo} (h : τ.edge? a b = some e) : (τ.bridge n).edge? a b = some e := by
  by_cases hb : τ.bridges n
  · rw [bridge_pos hb, edge?_addEdge]
    split
    · rename_i hh
      obtain ⟨l, p, h0, h1, h2, h3, h4, h5⟩ := hb
      have : τ.hasEdge a b = false := by
        rcases hh with ⟨rfl, rfl⟩ | ⟨rfl, rfl⟩
        · exact h5
        · rw [hasEdge_edge?, edge?_comm, ← hasEdge_edge?]; exact h5
      rw [hasEdge_edge?, h] at this
      cases this
    · exact h
  · rw [bridge_neg hb]; exact h

theorem sync_remove (rm : List NodeId) {τ : Spec} (hg : τ.Good) (hc : τ.NoCross) :
    Op.okAll τ (rm.map .removeNode) = true ∧ (τ.after (rm.map .removeNode)).Good ∧
    (∀ m, (τ.after (rm.map .removeNode)).nodes.find? m = if m ∈ rm then none else τ.nodes.find? m) ∧
    (∀ a b e, a ∉ rm → b ∉ rm → τ.edge? a b = some e → (τ.after (rm.map .removeNode)).edge? a b = some e) ∧
    (τ.after (rm.map .removeNode)).mesh = τ.mesh ∧ (τ.after (rm.map .removeNode)).layerIds = τ.layerIds := by
  induction rm generalizing τ with
  | nil => exact ⟨rfl, hg, by simp, fun a b e _ _ h => h, rfl, rfl⟩
  | cons n rm ih =>
    have hok : (Op.removeNode n).ok τ = true := hc.crossFree n
    have hg' := hg.step _ hok
    have hnodes : ∀ m, (τ.removeNode n).1.nodes.find? m = if n = m then none else τ.nodes.find? m := by
      intro m
      unfold Spec.removeNode
      split
      · simp only [dropNode, nodes_bridge, OMap.find?_erase]
      · rename_i h
        split
        · rename_i e; subst e
          exact OMap.contains_eq_false.1 (Bool.eq_false_iff.2 h)
        · rfl
    have hkey : ∀ m k, (τ.removeNode n).1.key? m = some k → τ.key? m = some k := by
      intro m k
      unfold key?
      rw [hnodes]
      split
      · intro h; cases h
      · exact id
    have hc' : (τ.removeNode n).1.NoCross := by
      intro a b ka kb he h1 h2 hl
      have h1' := hkey _ _ h1
      have h2' := hkey _ _ h2
      unfold Spec.removeNode at he
      split at he
      · rw [hasEdge_edge?, edge?_dropNode] at he
        split at he
        · cases he
        · rw [← hasEdge_edge?] at he
          rcases hasEdge_bridge he with h | ⟨k, hk1, hk2⟩
          · exact hc a b ka kb h h1' h2' hl
          · rw [hk1] at h1'; rw [hk2] at h2'
            cases h1'; cases h2'; rfl
      · exact hc a b ka kb he h1' h2' hl
    have hedge : ∀ a b e, a ≠ n → b ≠ n → τ.edge? a b = some e → (τ.removeNode n).1.edge? a b = some e := by
      intro a b e ha hb he
      unfold Spec.removeNode
      split
      · rw [edge?_dropNode, if_neg (by simp [ha, hb])]
        exact edge?_bridge he
      · exact he
    have hrest : (τ.removeNode n).1.mesh = τ.mesh ∧ (τ.removeNode n).1.layerIds = τ.layerIds := by
      unfold Spec.removeNode
      split
      · by_cases hb : τ.bridges n
        · rw [bridge_pos hb]; exact ⟨rfl, rfl⟩
        · rw [bridge_neg hb]; exact ⟨rfl, rfl⟩
      · exact ⟨rfl, rfl⟩
    obtain ⟨i1, i2, i3, i4, i5, i6⟩ := ih (τ := (τ.removeNode n).1) hg' hc'
    simp only [List.map_cons, Op.okAll, hok, Bool.true_and, after_cons]
    refine ⟨i1, i2, ?_, ?_, i5.trans hrest.1, i6.trans hrest.2⟩
    · intro m
      refine (i3 m).trans ?_
      rw [hnodes]
      by_cases h1 : m ∈ rm
      · simp [h1]
      · by_cases h2 : n = m
        · simp [h2]
        · simp [h1, h2, Ne.symm h2]
    · intro a b e ha hb he
      simp only [List.mem_cons, not_or] at ha hb
      exact i4 a b e ha.2 hb.2 (hedge a b e ha.1 hb.1 he)

/-! ## Edges -/

/-- marks belong to present edges, at their place -/
def MarksOk (τ : Spec) : Prop := ∀ k p, τ.marks.find? k = some p → τ.edges.contains k = true ∧ τ.placeOf k = some p

/-- the key of an edge -/
def ekey (e : EdgeInfo) : EdgeKey := EdgeKey.of e.src e.tgt

theorem placeOf_some {τ : Spec} (hw : SWF τ) {k : EdgeKey} (h : τ.edges.contains k = true) : (τ.placeOf k).isSome = true := by
  obtain ⟨e, he⟩ := OMap.contains_eq_true.1 h
  obtain ⟨h1, _, h3, h4⟩ := hw.edge k e he
  obtain ⟨i, hi⟩ := OMap.contains_eq_true.1 h3
  obtain ⟨j, hj⟩ := OMap.contains_eq_true.1 h4
  subst h1
  unfold placeOf key?
  rcases EdgeKey.of_eq e.src e.tgt with ⟨hh, _⟩ | ⟨hh, _⟩ <;> simp [hh, hi, hj]

theorem markStale_marks {τ : Spec} (hw : SWF τ) (k : EdgeKey) :
    τ.markStale.marks.find? k = if τ.edges.contains k then τ.placeOf k else none := by
  unfold markStale
  simp only [OMap.find?_map, OMap.find?_filter]
  cases h : τ.edges.find? k with
  | none => simp [OMap.contains_eq_false.2 h]
  | some e =>
    have hc := OMap.contains_eq_true.2 ⟨e, h⟩
    obtain ⟨p, hp⟩ := Option.isSome_iff_exists.1 (placeOf_some hw hc)
    simp [hc, hp, h]

theorem sync_edge {τ : Spec} (hw : SWF τ) (hm : τ.MarksOk) (e : EdgeInfo) (hne : e.src ≠ e.tgt) (hs : τ.nodes.contains e.src = true)
    (ht : τ.nodes.contains e.tgt = true) :
    (edgeOp e).ok τ = true ∧ (τ.step (edgeOp e)).1.nodes = τ.nodes ∧ (τ.step (edgeOp e)).1.mesh = τ.mesh ∧
    (τ.step (edgeOp e)).1.layerIds = τ.layerIds ∧
    (τ.step (edgeOp e)).1.edges = τ.edges.insert (ekey e) (match τ.edges.find? (ekey e) with | some o => { o with attrs := e.attrs } | none => e) ∧
    (∀ k, (τ.step (edgeOp e)).1.marks.find? k = if ekey e = k then none else τ.marks.find? k) := by
  simp only [edgeOp, Op.ok, Spec.step, Spec.ans, Option.isSome_some, Bool.or_true, true_and]
  unfold addOrUpdateEdge
  cases hf : τ.edges.find? (ekey e) with
  | some o =>
    have hc : τ.edges.contains (ekey e) = true := OMap.contains_eq_true.2 ⟨o, hf⟩
    have hh : τ.hasEdge e.src e.tgt = true := hc
    have he : τ.edge? e.src e.tgt = some o := hf
    simp only [hh, if_true, setEdgeAttrs, he, Option.getD_some, nodes_touch]
    have h1 : ∀ k, (τ.touch k).mesh = τ.mesh ∧ (τ.touch k).layerIds = τ.layerIds := by
      intro k; unfold touch; split <;> exact ⟨rfl, rfl⟩
    refine ⟨trivial, (h1 _).1, (h1 _).2, rfl, ?_⟩
    intro k
    rw [marks_touch]
    by_cases hk : ekey e = k
    · subst hk
      rw [if_pos rfl]
      split
      · rfl
      · rename_i hh
        cases hmk : τ.marks.find? (ekey e) with
        | none => rfl
        | some p => exact absurd ⟨rfl, hc, hmk.trans (hm _ _ hmk).2.symm⟩ hh
    · rw [if_neg (fun h => hk h.1), if_neg hk]
  | none =>
    have hc : τ.edges.contains (ekey e) = false := OMap.contains_eq_false.2 hf
    have hh : τ.hasEdge e.src e.tgt = false := hc
    simp only [hh, Bool.false_eq_true, if_false, insertEdge, hne, hs, ht, Bool.not_true, Bool.or_self, addEdge, Option.getD_some, true_and]
    refine ⟨rfl, ?_⟩
    intro k
    split
    · rename_i hk
      subst hk
      cases hmk : τ.marks.find? (ekey e) with
      | none => rfl
      | some p => rw [(hm _ _ hmk).1] at hc; cases hc
    · rfl

theorem sync_edges (Es : List EdgeInfo) {τ : Spec} (hg : τ.Good) (hm : τ.MarksOk) (hk : (Es.map ekey).Nodup)
    (he : ∀ e ∈ Es, e.src ≠ e.tgt ∧ τ.nodes.contains e.src = true ∧ τ.nodes.contains e.tgt = true) :
    Op.okAll τ (Es.map edgeOp) = true ∧ (τ.after (Es.map edgeOp)).Good ∧
    (τ.after (Es.map edgeOp)).nodes = τ.nodes ∧ (τ.after (Es.map edgeOp)).mesh = τ.mesh ∧ (τ.after (Es.map edgeOp)).layerIds = τ.layerIds ∧
    (∀ e ∈ Es, (τ.after (Es.map edgeOp)).edges.find? (ekey e) =
      some (match τ.edges.find? (ekey e) with | some o => { o with attrs := e.attrs } | none => e)) ∧
    (∀ k, k ∉ Es.map ekey → (τ.after (Es.map edgeOp)).edges.find? k = τ.edges.find? k) ∧
    (∀ k, (τ.after (Es.map edgeOp)).marks.find? k = if k ∈ Es.map ekey then none else τ.marks.find? k) := by
  induction Es generalizing τ with
  | nil => exact ⟨rfl, hg, rfl, rfl, rfl, by simp, by simp, by simp⟩
  | cons e Es ih =>
    obtain ⟨a1, a2, a3⟩ := he e List.mem_cons_self
    obtain ⟨h1, h2, h3, h4, h5, h6⟩ := sync_edge hg.1 hm e a1 a2 a3
    have hg' := hg.step _ h1
    simp only [List.map_cons, List.nodup_cons] at hk
    have hm' : (τ.step (edgeOp e)).1.MarksOk := by
      intro k p hp
      rw [h6] at hp
      split at hp
      · cases hp
      · obtain ⟨b1, b2⟩ := hm k p hp
        refine ⟨?_, ?_⟩
        · rw [h5, OMap.contains_insert, b1, Bool.or_true]
        · rw [← b2]
          unfold placeOf key?
          rw [h2]
    obtain ⟨i1, i2, i3, i4, i5, i6, i7, i8⟩ := ih hg' hm' hk.2 (by
      intro x hx
      rw [h2]
      exact he x (List.mem_cons_of_mem _ hx))
    simp only [List.map_cons, Op.okAll, h1, Bool.true_and, after_cons]
    refine ⟨i1, i2, i3.trans h2, i4.trans h3, i5.trans h4, ?_, ?_, ?_⟩
    · intro x hx
      rcases List.mem_cons.1 hx with rfl | hx
      · rw [i7 _ hk.1, h5, OMap.find?_insert_self]
      · rw [i6 x hx, h5]
        have : ekey e ≠ ekey x := fun h => hk.1 (h ▸ List.mem_map_of_mem hx)
        rw [OMap.find?_insert_ne _ _ this]
    · intro k hkk
      simp only [List.mem_cons, not_or] at hkk
      rw [i7 k hkk.2, h5, OMap.find?_insert_ne _ _ (Ne.symm hkk.1)]
    · intro k
      rw [i8, h6]
      by_cases h : k ∈ Es.map ekey
      · simp [h]
      · by_cases h' : ekey e = k
        · simp [h']
        · simp [h, h', Ne.symm h']

/-! ## The whole -/

/-- Receiver `σ`, message with nodes `N`, edges `Es` and possibly a mesh; `rm` lists the receiver's other nodes. -/
theorem sync_all {σ : Spec} {N : List (NodeId × NodeInfo)} {rm : List NodeId} {Es : List EdgeInfo} {mesh : Option Mesh}
    (hg : σ.Good) (hf : Fits σ N) (hc : σ.NoCross) (hrm : ∀ m, m ∈ rm ↔ σ.nodes.contains m = true ∧ m ∉ N.map Prod.fst)
    (hk : (Es.map ekey).Nodup)
    (he : ∀ e ∈ Es, e.src ≠ e.tgt ∧ e.src ∈ N.map Prod.fst ∧ e.tgt ∈ N.map Prod.fst) :
    Op.okAll σ (syncOps F N rm Es mesh) = true ∧
    (∀ e ∈ N, (σ.after (syncOps F N rm Es mesh)).nodes.find? e.1 = some (keptInfo F e)) ∧
    (∀ m, m ∉ N.map Prod.fst → (σ.after (syncOps F N rm Es mesh)).nodes.find? m = none) ∧
    (∀ e ∈ Es, ∃ x, (σ.after (syncOps F N rm Es mesh)).edges.find? (ekey e) = some x ∧ x.attrs = e.attrs ∧
      (∀ o, σ.edges.find? (ekey e) = some o → x.src = o.src ∧ x.tgt = o.tgt) ∧
      ((∀ k, σ.edges.find? k = none) → rm = [] → x = e)) ∧
    (∀ k, k ∉ Es.map ekey → (σ.after (syncOps F N rm Es mesh)).edges.find? k = none) ∧
    (σ.after (syncOps F N rm Es mesh)).layerIds = σ.layerIds ∧
    (σ.after (syncOps F N rm Es mesh)).mesh = (match mesh with | none => σ.mesh | some m => some m) := by
  obtain ⟨a1, a2, a3, a4, a5, a6, a7, a8⟩ := sync_nodes (F := F) hg hf
  have hc1 : (σ.after (N.map (nodeOp F))).NoCross := by
    intro a b ka kb h1 h2 h3 hl
    have h1' : σ.hasEdge a b = true := by unfold hasEdge at h1 ⊢; rwa [a5] at h1
    obtain ⟨_, hna, hnb⟩ := hg.1.hasEdge_nodes h1'
    have hkey : ∀ n k, σ.nodes.contains n = true → (σ.after (N.map (nodeOp F))).key? n = some k → σ.key? n = some k := by
      intro n k hn hk
      obtain ⟨i, hi⟩ := OMap.contains_eq_true.1 hn
      by_cases hm : n ∈ N.map Prod.fst
      · obtain ⟨x, hx, rfl⟩ := List.mem_map.1 hm
        unfold key? at hk ⊢
        rw [a3 x hx] at hk
        cases hk
        rw [hi]
        exact congrArg some (hf.shared x hx i hi).1
      · unfold key? at hk ⊢
        rwa [a4 n hm] at hk
    exact hc a b ka kb h1' (hkey a ka hna h2) (hkey b kb hnb h3) hl
  obtain ⟨b1, b2, b3, b4, b5, b6⟩ := sync_remove rm a2 hc1
  have hm3 : ((σ.after (N.map (nodeOp F))).after (rm.map .removeNode)).markStale.MarksOk := by
    intro k p hp
    rw [markStale_marks b2.1] at hp
    split at hp
    · rename_i hh
      exact ⟨hh, hp⟩
    · cases hp
  have hg3 : ((σ.after (N.map (nodeOp F))).after (rm.map .removeNode)).markStale.Good := b2.step .markStale rfl
  have hN : ∀ m, m ∈ N.map Prod.fst → m ∉ rm := fun m hm h => ((hrm m).1 h).2 hm
  have hn2 : ∀ m, ((σ.after (N.map (nodeOp F))).after (rm.map .removeNode)).nodes.contains m = true ↔ m ∈ N.map Prod.fst := by
    intro m
    rw [OMap.contains_eq_true, b3]
    constructor
    · rintro ⟨i, hi⟩
      split at hi
      · cases hi
      · rename_i hnr
        by_cases hm : m ∈ N.map Prod.fst
        · exact hm
        · rw [a4 m hm] at hi
          exact absurd ((hrm m).2 ⟨OMap.contains_eq_true.2 ⟨i, hi⟩, hm⟩) hnr
    · intro hm
      rw [if_neg (hN m hm)]
      obtain ⟨x, hx, rfl⟩ := List.mem_map.1 hm
      exact ⟨_, a3 x hx⟩
  obtain ⟨c1, c2, c3, c4, c5, c6, c7, c8⟩ := sync_edges Es hg3 hm3 hk (by
    intro e hee
    obtain ⟨x1, x2, x3⟩ := he e hee
    exact ⟨x1, (hn2 _).2 x2, (hn2 _).2 x3⟩)
  -- assemble
  have hmesh : ∀ τ : Spec, (τ.after (meshOps mesh)).nodes = τ.nodes ∧
      (τ.after (meshOps mesh)).edges = τ.edges ∧
      (τ.after (meshOps mesh)).layerIds = τ.layerIds ∧
      (τ.after (meshOps mesh)).mesh = (match mesh with | none => τ.mesh | some m => some m) := by
    intro τ
    cases mesh <;> exact ⟨rfl, rfl, rfl, rfl⟩
  have hafter : σ.after (syncOps F N rm Es mesh) =
      (((((σ.after (N.map (nodeOp F))).after (rm.map .removeNode)).markStale.after (Es.map edgeOp)).sweep).after
        (meshOps mesh)) := by
    unfold syncOps
    rw [after_append, after_append, after_cons, after_append, after_cons]
    rfl
  have hok : Op.okAll σ (syncOps F N rm Es mesh) = true := by
    unfold syncOps
    rw [Op.okAll_append, Op.okAll_append, a1, b1]
    simp only [Bool.true_and, Op.okAll]
    rw [Op.okAll_append]
    simp only [Bool.and_eq_true]
    refine ⟨rfl, c1, ?_⟩
    cases mesh <;> rfl
  refine ⟨hok, ?_⟩
  rw [hafter]
  obtain ⟨m1, m2, m3, m4⟩ := hmesh ((((σ.after (N.map (nodeOp F))).after (rm.map .removeNode)).markStale.after (Es.map edgeOp)).sweep)
  rw [m1, m2, m3, m4]
  have e1 : ∀ m, ((((σ.after (N.map (nodeOp F))).after (rm.map .removeNode)).markStale.after (Es.map edgeOp)).sweep).nodes.find? m =
      if m ∈ rm then none else (σ.after (N.map (nodeOp F))).nodes.find? m := by
    intro m
    show (((σ.after (N.map (nodeOp F))).after (rm.map .removeNode)).markStale.after (Es.map edgeOp)).nodes.find? m = _
    rw [c3]
    exact b3 m
  have hsw : ∀ k, ((((σ.after (N.map (nodeOp F))).after (rm.map .removeNode)).markStale.after (Es.map edgeOp)).sweep).edges.find? k =
      if k ∈ Es.map ekey then (((σ.after (N.map (nodeOp F))).after (rm.map .removeNode)).markStale.after (Es.map edgeOp)).edges.find? k else none := by
    intro k
    unfold sweep
    simp only [OMap.find?_filter]
    by_cases hkk : k ∈ Es.map ekey
    · have : (((σ.after (N.map (nodeOp F))).after (rm.map .removeNode)).markStale.after (Es.map edgeOp)).marks.contains k = false := by
        rw [OMap.contains_eq_false, c8, if_pos hkk]
      rw [if_pos hkk]
      cases h : (((σ.after (N.map (nodeOp F))).after (rm.map .removeNode)).markStale.after (Es.map edgeOp)).edges.find? k with
      | none => rfl
      | some x => simp [this]
    · rw [if_neg hkk, c7 k hkk]
      cases h : ((σ.after (N.map (nodeOp F))).after (rm.map .removeNode)).markStale.edges.find? k with
      | none => rfl
      | some x =>
        have hc : ((σ.after (N.map (nodeOp F))).after (rm.map .removeNode)).edges.contains k = true := OMap.contains_eq_true.2 ⟨x, h⟩
        have : (((σ.after (N.map (nodeOp F))).after (rm.map .removeNode)).markStale.after (Es.map edgeOp)).marks.contains k = true := by
          rw [OMap.contains_eq_true, c8, if_neg hkk, markStale_marks b2.1, hc]
          exact Option.isSome_iff_exists.1 (placeOf_some b2.1 hc)
        simp [this]
  refine ⟨?_, ?_, ?_, ?_, ?_, ?_⟩
  · intro e hee
    have hm : e.1 ∈ N.map Prod.fst := List.mem_map_of_mem hee
    rw [e1, if_neg (hN _ hm)]
    exact a3 e hee
  · intro m hm
    rw [e1]
    split
    · rfl
    · rename_i hnr
      rw [a4 m hm]
      cases h : σ.nodes.find? m with
      | none => rfl
      | some i => exact absurd ((hrm m).2 ⟨OMap.contains_eq_true.2 ⟨i, h⟩, hm⟩) hnr
  · intro e hee
    refine ⟨_, (hsw _).trans ((if_pos (List.mem_map_of_mem hee)).trans (c6 e hee)), ?_, ?_, ?_⟩
    · split <;> rfl
    · intro o ho
      obtain ⟨_, x2, x3⟩ := he e hee
      have : ((σ.after (N.map (nodeOp F))).after (rm.map .removeNode)).edge? e.src e.tgt = some o := by
        refine b4 _ _ _ (hN _ x2) (hN _ x3) ?_
        unfold edge?
        rw [a5]
        exact ho
      have : ((σ.after (N.map (nodeOp F))).after (rm.map .removeNode)).markStale.edges.find? (ekey e) = some o := this
      rw [this]
      exact ⟨rfl, rfl⟩
    · intro hno hrm0
      subst hrm0
      have : ((σ.after (N.map (nodeOp F))).after (List.map Op.removeNode [])).markStale.edges.find? (ekey e) = none := by
        show (σ.after (N.map (nodeOp F))).edges.find? _ = none
        rw [a5]
        exact hno _
      rw [this]
  · intro k hkk
    rw [hsw, if_neg hkk]
  · show (((σ.after (N.map (nodeOp F))).after (rm.map .removeNode)).markStale.after (Es.map edgeOp)).layerIds = _
    rw [c5]
    show ((σ.after (N.map (nodeOp F))).after (rm.map .removeNode)).layerIds = _
    rw [b6, a8]
  · have : (((σ.after (N.map (nodeOp F))).after (rm.map .removeNode)).markStale.after (Es.map edgeOp)).mesh = σ.mesh := by
      rw [c4]
      show ((σ.after (N.map (nodeOp F))).after (rm.map .removeNode)).mesh = _
      rw [b5, a7]
    show (match mesh with | none => (((σ.after (N.map (nodeOp F))).after (rm.map .removeNode)).markStale.after (Es.map edgeOp)).mesh | some m => some m) = _
    rw [this]

end Spec
end Verif
