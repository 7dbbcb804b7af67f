import Verif.Refine.SpecStep
/-! # Stale marks along a history -/

namespace Verif

/-- The call looks up or updates the edge `{a, b}` (`findEdge`/`getEdge`, `setEdgeAttributes`, `addOrUpdateEdge`). -/
def Op.uses (a b : NodeId) : Op → Bool
  | .findEdge s t | .setEdgeAttrs s t _ | .addOrUpdateEdge s t _ => (s == a && t == b) || (s == b && t == a)
  | _ => false

namespace Spec
variable {σ : Spec}

theorem EdgeKey.of_eq_iff {s t a b : NodeId} : EdgeKey.of s t = EdgeKey.of a b ↔ (s = a ∧ t = b) ∨ (s = b ∧ t = a) :=
  EdgeKey.of_inj

theorem uses_key {s t a b : NodeId} : ((s == a && t == b) || (s == b && t == a)) = decide (EdgeKey.of s t = EdgeKey.of a b) := by
  rw [Bool.eq_iff_iff]
  simp [EdgeKey.of_eq_iff]

theorem marks_touch (σ : Spec) (k key : EdgeKey) : (σ.touch k).marks.find? key =
    if k = key ∧ σ.edges.contains k = true ∧ σ.marks.find? k = σ.placeOf k then none else σ.marks.find? key := by
  unfold touch
  by_cases h : σ.edges.contains k = true ∧ σ.marks.find? k = σ.placeOf k
  · obtain ⟨h1, h2⟩ := h
    simp only [h1, h2, decide_true, Bool.and_self, if_true, OMap.find?_erase, and_self, and_true]
  · have : (σ.edges.contains k && decide (σ.marks.find? k = σ.placeOf k)) = false := by
      simpa only [Bool.and_eq_false_imp, decide_eq_false_iff_not, not_and] using h
    simp only [this, h, and_false, if_false, Bool.false_eq_true]

/-- An edge without a mark gets none, except by marking. -/
theorem marks_none (σ : Spec) {op : Op} (hop : op ≠ .markStale) {key : EdgeKey} (h : σ.marks.find? key = none) :
    (σ.step op).1.marks.find? key = none := by
  have ht : ∀ k, (σ.touch k).marks.find? key = none := by
    intro k; rw [marks_touch]; split <;> simp [h]
  have hset : ∀ s t a, (σ.setEdgeAttrs s t a).1.marks.find? key = none := by
    intro s t a; unfold setEdgeAttrs; split
    · exact h
    · exact ht _
  cases op <;> simp only [step, ans]
  case clear => simp only [clear, OMap.find?_filter, h]; rfl
  case reset => simp only [reset, clear, OMap.find?_filter, h]; rfl
  case createDyn => unfold createDyn; split <;> exact h
  case emplaceNode => unfold emplaceNode; repeat (first | split | exact h)
  case insertNode => unfold emplaceNode; repeat (first | split | exact h)
  case emplaceDyn => unfold emplaceDyn; simp only; repeat (first | split | exact h)
  case emplacePrev => unfold emplacePrev; repeat (first | split | exact h)
  case addOrUpdateNode =>
    unfold addOrUpdateNode emplacePrev emplaceNode setNodeAttrs; repeat (first | split | exact h)
  case setNodeAttrs => unfold setNodeAttrs; repeat (first | split | exact h)
  case insertEdge => unfold insertEdge; repeat (first | split | exact h)
  case insertParentEdge => unfold insertParentEdge; repeat (first | split | exact h)
  case addOrUpdateEdge s t i =>
    unfold addOrUpdateEdge; split
    · exact hset _ _ _
    · unfold insertEdge; repeat (first | split | exact h)
  case setEdgeAttrs => exact hset _ _ _
  case findEdge => exact ht _
  case removeNode n =>
    unfold removeNode; split
    · unfold dropNode
      by_cases hb : σ.bridges n
      · rw [bridge_pos hb]; exact h
      · rw [bridge_neg hb]; exact h
    · exact h
  case removeEdge => unfold removeEdge; split <;> exact h
  case mergeNodes =>
    unfold mergeNodes
    split
    · exact h
    · split
      · split
        · exact h
        · simp only [mergedMarks, OMap.find?_filter, h]; rfl
      · exact h
  case setMesh => exact h
  case markStale => exact absurd rfl hop
  case sweep => exact h
  all_goals exact h

/-- The mark of an edge that stays is cleared exactly by looking it up or updating it. -/
theorem marks_some (hw : SWF σ) {op : Op} (hop : op ≠ .markStale) {a b : NodeId} {p : Place}
    (hm : σ.marks.find? (EdgeKey.of a b) = some p) (hp : σ.placeOf (EdgeKey.of a b) = some p)
    (he : σ.hasEdge a b = true) (he' : (σ.step op).1.hasEdge a b = true) :
    (op.uses a b = true ∧ (σ.step op).1.marks.find? (EdgeKey.of a b) = none) ∨
    (op.uses a b = false ∧ (σ.step op).1.marks.find? (EdgeKey.of a b) = some p) := by
  have ht : ∀ s t, (((s == a && t == b) || (s == b && t == a)) = true ∧ (σ.touch (EdgeKey.of s t)).marks.find? (EdgeKey.of a b) = none) ∨
      (((s == a && t == b) || (s == b && t == a)) = false ∧ (σ.touch (EdgeKey.of s t)).marks.find? (EdgeKey.of a b) = some p) := by
    intro s t
    rw [marks_touch, uses_key]
    by_cases e : EdgeKey.of s t = EdgeKey.of a b
    · have : σ.edges.contains (EdgeKey.of a b) = true := he
      left; simp only [e, this, hm, hp, and_self, if_true, decide_true]
    · right; simp only [e, false_and, if_false, decide_false, true_and, hm]
  have hset : ∀ s t x, (((s == a && t == b) || (s == b && t == a)) = true ∧ (σ.setEdgeAttrs s t x).1.marks.find? (EdgeKey.of a b) = none) ∨
      (((s == a && t == b) || (s == b && t == a)) = false ∧ (σ.setEdgeAttrs s t x).1.marks.find? (EdgeKey.of a b) = some p) := by
    intro s t x; unfold setEdgeAttrs; split
    · rename_i hn
      rw [uses_key]
      have : EdgeKey.of s t ≠ EdgeKey.of a b := by
        intro e
        unfold hasEdge at he; unfold edge? at hn
        rw [← e] at he
        rw [OMap.contains_eq_false.2 hn] at he; cases he
      right; simp only [this, decide_false, true_and, hm]
    · exact ht _ _
  have keep : ∀ s : Spec, s.marks.find? (EdgeKey.of a b) = some p → op.uses a b = false →
      (op.uses a b = true ∧ s.marks.find? (EdgeKey.of a b) = none) ∨
      (op.uses a b = false ∧ s.marks.find? (EdgeKey.of a b) = some p) := fun s h1 h2 => .inr ⟨h2, h1⟩
  cases op <;> simp only [step, ans] at he' ⊢
  case clear => exact absurd he' (by simp [clear, hasEdge, OMap.contains])
  case reset => exact absurd he' (by simp [reset, clear, hasEdge, OMap.contains])
  case createDyn => refine keep _ ?_ rfl; unfold createDyn; split <;> exact hm
  case emplaceNode => refine keep _ ?_ rfl; unfold emplaceNode; repeat (first | split | exact hm)
  case insertNode => refine keep _ ?_ rfl; unfold emplaceNode; repeat (first | split | exact hm)
  case emplaceDyn => refine keep _ ?_ rfl; unfold emplaceDyn; simp only; repeat (first | split | exact hm)
  case emplacePrev => refine keep _ ?_ rfl; unfold emplacePrev; repeat (first | split | exact hm)
  case addOrUpdateNode =>
    refine keep _ ?_ rfl
    unfold addOrUpdateNode emplacePrev emplaceNode setNodeAttrs; repeat (first | split | exact hm)
  case setNodeAttrs => refine keep _ ?_ rfl; unfold setNodeAttrs; repeat (first | split | exact hm)
  case insertEdge => refine keep _ ?_ rfl; unfold insertEdge; repeat (first | split | exact hm)
  case insertParentEdge => refine keep _ ?_ rfl; unfold insertParentEdge; repeat (first | split | exact hm)
  case addOrUpdateEdge s t i =>
    unfold addOrUpdateEdge; split
    · exact hset _ _ _
    · rename_i hn
      have : EdgeKey.of s t ≠ EdgeKey.of a b := by
        intro e; unfold hasEdge at he hn; rw [← e] at he; exact hn he
      refine keep _ ?_ ?_
      · unfold insertEdge; repeat (first | split | exact hm)
      · simp only [Op.uses, uses_key, this, decide_false]
  case setEdgeAttrs => exact hset _ _ _
  case findEdge => exact ht _ _
  case removeNode n =>
    refine keep _ ?_ rfl
    unfold removeNode; split
    · unfold dropNode
      by_cases hb : σ.bridges n
      · rw [bridge_pos hb]; exact hm
      · rw [bridge_neg hb]; exact hm
    · exact hm
  case removeEdge => refine keep _ ?_ rfl; unfold removeEdge; split <;> exact hm
  case mergeNodes f t =>
    refine keep _ ?_ rfl
    by_cases hft : f = t
    · simpa only [mergeNodes, hft, if_true] using hm
    by_cases hk : ∃ k, σ.key? f = some k ∧ σ.key? t = some k
    · obtain ⟨k, hf, ht'⟩ := hk
      have h1 := edge?_mergeNodes hw hft hf ht' a b
      rw [hasEdge_edge?, h1] at he'
      have hab : ¬ (a = f ∨ b = f) := by
        intro h; simp [h] at he'
      have hnf : (EdgeKey.of a b).has f = false := by
        simp only [not_or] at hab
        unfold EdgeKey.has EdgeKey.of
        simp only [Bool.or_eq_false_iff, beq_eq_false_iff_ne]
        constructor <;> split <;> simp [hab]
      simp only [mergeNodes, hft, if_false, hf, ht', ne_eq, not_true, mergedMarks, OMap.find?_filter, hm, hnf]
      simp
    · unfold mergeNodes
      simp only [hft, if_false]
      split
      · rename_i kf kt hf ht'
        split
        · exact hm
        · rename_i h
          exact absurd ⟨kf, hf, by simpa [Classical.not_not.1 h] using ht'⟩ hk
      · exact hm
  case markStale => exact absurd rfl hop
  all_goals exact keep _ hm rfl

/-- The place of an edge that stays does not change. -/
theorem placeOf_step (hw : SWF σ) (hw' : SWF (σ.step op).1) {a b : NodeId}
    (he : σ.hasEdge a b = true) (he' : (σ.step op).1.hasEdge a b = true) :
    (σ.step op).1.placeOf (EdgeKey.of a b) = σ.placeOf (EdgeKey.of a b) := by
  obtain ⟨_, h1, h2⟩ := hw.hasEdge_nodes he
  obtain ⟨_, h3, h4⟩ := hw'.hasEdge_nodes he'
  obtain ⟨ka, ha⟩ := key_of_contains h1
  obtain ⟨kb, hb⟩ := key_of_contains h2
  obtain ⟨ka', ha'⟩ := key_of_contains h3
  obtain ⟨kb', hb'⟩ := key_of_contains h4
  have e1 := σ.step_key op ha
  have e2 := σ.step_key op hb
  rw [ha'] at e1; rw [hb'] at e2
  simp only [Option.some.injEq, reduceCtorEq, or_false] at e1 e2
  rw [placeOf_of ha' hb', placeOf_of ha hb, e1, e2]

end Spec

/-- Marks along a whole history. -/
theorem Spec.marks_run {σ : Spec} {g : Graph} (hr : R g σ) (hw : SWF σ) {mid : List Op} (hok : Op.okAll σ mid = true)
    (hmid : Op.markStale ∉ mid) {a b : NodeId} :
    (σ.marks.find? (EdgeKey.of a b) = none → (σ.after mid).marks.find? (EdgeKey.of a b) = none) ∧
    (∀ p, σ.marks.find? (EdgeKey.of a b) = some p → σ.placeOf (EdgeKey.of a b) = some p →
      (∀ j, (σ.after (mid.take j)).hasEdge a b = true) →
      ((∃ op ∈ mid, op.uses a b = true) → (σ.after mid).marks.find? (EdgeKey.of a b) = none) ∧
      ((∀ op ∈ mid, op.uses a b = false) → (σ.after mid).marks.find? (EdgeKey.of a b) = some p)) := by
  induction mid generalizing σ g with
  | nil => exact ⟨fun h => h, fun p h1 h2 h3 => ⟨by simp, fun _ => h1⟩⟩
  | cons op mid ih =>
    simp only [Op.okAll, Bool.and_eq_true] at hok
    obtain ⟨g', out, e, _, hr', hw', _⟩ := hr.step hw op hok.1
    have hop : op ≠ .markStale := fun h => hmid (by simp [h])
    obtain ⟨i1, i2⟩ := ih hr' hw' hok.2 (fun h => hmid (by simp [h]))
    refine ⟨fun h => i1 (Spec.marks_none σ hop h), ?_⟩
    intro p h1 h2 h3
    have he : σ.hasEdge a b = true := h3 0
    have he' : (σ.step op).1.hasEdge a b = true := h3 1
    simp only [List.mem_cons, exists_eq_or_imp, forall_eq_or_imp, Spec.after_cons]
    rcases Spec.marks_some hw hop h1 h2 he he' with ⟨u, m⟩ | ⟨u, m⟩
    · refine ⟨fun _ => i1 m, fun h => ?_⟩
      rw [u] at h; cases h.1
    · obtain ⟨j1, j2⟩ := i2 p m (by rw [Spec.placeOf_step hw hw' he he', h2]) (fun j => h3 (j + 1))
      refine ⟨fun h => j1 ?_, fun h => j2 h.2⟩
      rcases h with h | h
      · rw [u] at h; cases h
      · exact h

end Verif
