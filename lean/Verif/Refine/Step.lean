import Verif.Refine.Whole
import Verif.Model.Api
/-! # Every well-behaved history refines the abstract graph -/

namespace Verif

/-- How a call changes the change logs. -/
inductive LogKind
  | plain | merged | wipe
  | pad (l : LayerId) (n : NodeId)
  | seenN (c : Bool) | forgetN (c : Bool) | seenE (c : Bool) | forgetE (c : Bool)

/-- The log behaviour of each call. -/
def Op.log (σ : Spec) : Op → LogKind
  | .clear | .reset _ => .wipe
  | .emplacePrev l n _ _ => .pad l n
  | .addOrUpdateNode l n _ (some _) => if !σ.layerIds.contains l || σ.nodes.contains n then .plain else .pad l n
  | .mergeNodes _ _ => .merged
  | .newNodes c => .seenN c
  | .removedNodes c => .forgetN c
  | .newEdges c => .seenE c
  | .removedEdges c => .forgetE c
  | _ => .plain

/-- What a call did to the change logs. -/
def Logged (σ : Spec) (v v' : View) : LogKind → Prop
  | .plain => NLog .deleted v v' ∧ ELog v v'
  | .merged => NLog .merged v v' ∧ ELog v v'
  | .wipe => (∀ k n, v'.st k n = none) ∧ ∀ c key, (v'.ec c).status.find? key = none
  | .pad l n => v'.ec = v.ec ∧
      if σ.nodes.contains n then v' = v
      else PadLog v v' l (Prefix.fromId n) n (σ.dynInfo l (Prefix.fromId n)).top
        (max (σ.dynInfo l (Prefix.fromId n)).top ((Prefix.fromId n).index n + 1))
  | .seenN c => (∀ k n, v'.st k n = (v.st k n).bind (Verif.seenN c)) ∧ v'.ec = v.ec
  | .forgetN c => (∀ k n, v'.st k n = (v.st k n).bind (Verif.forgetN c)) ∧ v'.ec = v.ec
  | .seenE c => v'.st = v.st ∧ ∀ p key, (v'.ec p).status.find? key = ((v.ec p).status.find? key).bind (Verif.seenE c)
  | .forgetE c => v'.st = v.st ∧
      ∀ p key, (v'.ec p).status.find? key = ((v.ec p).status.find? key).bind (Verif.forgetE c)

variable {g : Graph} {σ : Spec}

theorem SWF.noCross (hw : SWF σ) {n : NodeId} (h : σ.crossFree n = true) : σ.noCross n := by
  intro m he hl
  obtain ⟨_, hn, hm⟩ := hw.hasEdge_nodes he
  obtain ⟨j, hj⟩ := OMap.contains_eq_true.1 hm
  unfold Spec.crossFree at h
  rw [List.all_eq_true] at h
  have := h (m, j) ((OMap.mem_toList).2 hj)
  have hk : σ.key? m = some j.key := by simp [Spec.key?, hj]
  rw [hk] at hl ⊢
  simp only [he, ← hl, Option.map_some, decide_true, Bool.true_and, Bool.not_eq_true', decide_eq_false_iff_not,
    Classical.not_not] at this
  exact this.symm

theorem Graph.clear_st (g : Graph) (k : LayerKey) (n : NodeId) : g.clear.view.st k n = none := by
  cases k <;> simp only [view, layerAt?_clear]
  · split <;> simp [BaseLayer.nst]
  · rfl

theorem Graph.clear_ec (g : Graph) (c : Place) (key : EdgeKey) : (g.clear.view.ec c).status.find? key = none := by
  cases c with
  | within k =>
    cases k <;> simp only [view, ecAt?, layerAt?_clear]
    · split <;> simp [BaseLayer.ec]
    · rfl
  | across b => cases b <;> rfl

theorem Spec.key_of_contains {σ : Spec} {n : NodeId} (h : σ.nodes.contains n = true) : ∃ k, σ.key? n = some k := by
  obtain ⟨i, hi⟩ := OMap.contains_eq_true.1 h
  exact ⟨i.key, by simp [Spec.key?, hi]⟩

/-- **Main step.** A well-behaved call on a graph that stores `σ` does not fault, answers what the abstract
call answers, leaves a graph that stores the abstract result, and updates the change logs as `Op.log` says. -/
theorem R.step (h : R g σ) (hw : SWF σ) (op : Op) (hok : op.ok σ = true) :
    ∃ g' out, g.step op = .ok (g', out) ∧ (∀ o, (σ.step op).2 = some o → out = o) ∧
      R g' (σ.step op).1 ∧ SWF (σ.step op).1 ∧ Logged σ g.view g'.view (op.log σ) := by
  have plain : ∀ (r : Res (Graph × Bool)) (s : Spec × Bool), (∃ g', r = .ok (g', s.2) ∧ Adv .deleted g.view g'.view s.1) →
      SWF s.1 → ∃ g' out, Graph.ans r = .ok (g', out) ∧ (∀ o, (Spec.ans s).2 = some o → out = o) ∧
        R g' (Spec.ans s).1 ∧ SWF (Spec.ans s).1 ∧ Logged σ g.view g'.view .plain := by
    rintro r s ⟨g', rfl, ha⟩ hs
    refine ⟨g', .bool s.2, rfl, ?_, ha.r, hs, ha.nlog, ha.elog⟩
    intro o ho; simpa [Spec.ans] using ho
  have prev : ∀ l n t a, σ.prevOk l n t = true → ∃ g' out, Graph.ans (g.emplacePrev l n t (some a)) = .ok (g', out) ∧
      (∀ o, (Spec.ans (σ.emplacePrev l n t a)).2 = some o → out = o) ∧ R g' (Spec.ans (σ.emplacePrev l n t a)).1 ∧
      SWF (Spec.ans (σ.emplacePrev l n t a)).1 ∧ Logged σ g.view g'.view (.pad l n) := by
    intro l n t a hok
    simp only [Spec.prevOk, Bool.and_eq_true, Bool.or_eq_true, Bool.not_eq_true', decide_eq_true_eq] at hok
    obtain ⟨⟨⟨h1, h2⟩, h3⟩, h4⟩ := hok
    obtain ⟨g', e, hr, hs, hec, hlog⟩ := h.emplacePrev hw h1 h2 t h3 a h4
    refine ⟨g', .bool (σ.emplacePrev l n t a).2, by rw [e]; rfl, ?_, hr, hs, hec, ?_⟩
    · intro o ho; simpa [Spec.ans] using ho
    · by_cases h5 : σ.nodes.contains n = true
      · simp only [h5, if_true] at hlog ⊢; rw [hlog]
      · simp only [h5] at hlog ⊢; exact hlog
  cases op with
  | clear =>
    refine ⟨g.clear, .unit, rfl, ?_, h.clear, hw.clear, ?_, ?_⟩
    · intro o ho; simpa [Spec.step] using ho
    · exact g.clear_st
    · exact g.clear_ec
  | reset ids =>
    refine ⟨g.reset ids, .unit, rfl, ?_, h.reset ids, hw.reset ids, ?_, ?_⟩
    · intro o ho; simpa [Spec.step] using ho
    · exact Graph.clear_st _
    · exact Graph.clear_ec _
  | createDyn l p =>
    refine plain _ _ ?_ ?_
    · obtain ⟨g', e, ha⟩ := h.createDyn hw l p .deleted
      exact ⟨g', by rw [e], ha⟩
    · unfold Spec.createDyn
      split
      · exact hw
      · exact hw.setDyn l p {}
  | emplaceNode l n a =>
    simp only [Op.ok, decide_eq_true_eq] at hok
    refine plain _ _ ?_ (hw.emplaceNode hok n none a)
    obtain ⟨g', e, ha⟩ := h.emplaceNode hw l n a .deleted
    exact ⟨g', by rw [e], ha⟩
  | insertNode l n st a =>
    simp only [Op.ok, decide_eq_true_eq] at hok
    refine plain _ _ ?_ (hw.emplaceNode hok n st a)
    obtain ⟨g', e, ha⟩ := h.insertNode hw l n st a .deleted
    exact ⟨g', by rw [e], ha⟩
  | emplaceDyn l p t a link =>
    simp only [Op.ok, Bool.and_eq_true, decide_eq_true_eq] at hok
    obtain ⟨⟨⟨h1, h2⟩, h3⟩, h4⟩ := hok
    obtain ⟨g', e, ha, hs⟩ := h.emplaceDyn hw h1 h2 h3 h4 t a link .deleted
    exact plain _ _ ⟨g', e, ha⟩ hs
  | emplacePrev l n t a => exact prev l n t a hok
  | addOrUpdateNode l n a st =>
    by_cases hcase : st = none ∨ σ.nodes.contains n = true ∨ σ.layerIds.contains l = false
    · have hlog : (Op.addOrUpdateNode l n a st).log σ = .plain := by
        cases st with
        | none => rfl
        | some t =>
          simp only [reduceCtorEq, false_or] at hcase
          simp only [Op.log]
          rcases hcase with e | e <;> simp [e, -List.contains_eq_mem]
      rw [hlog]
      refine plain _ _ (h.addOrUpdateNode_known hw l n a st hcase .deleted) ?_
      unfold Spec.addOrUpdateNode
      by_cases h1 : σ.layerIds.contains l = true
      · simp only [h1, Bool.not_true, Bool.false_eq_true, if_false]
        by_cases h2 : σ.nodes.contains n = true
        · simp only [h2, if_true]; exact hw.setNodeAttrs n a
        · have h3 : st = none := by
            rcases hcase with e | e | e
            · exact e
            · exact absurd e h2
            · rw [h1] at e; cases e
          subst h3
          simp only [h2, Bool.false_eq_true, if_false]
          refine hw.emplaceNode ?_ n none a
          simpa only [Op.ok, h1, h2, Bool.not_true, Bool.false_or, decide_eq_true_eq] using hok
      · simp only [h1]; exact hw
    · simp only [not_or, Bool.not_eq_true, Bool.not_eq_false] at hcase
      obtain ⟨h1, h2, h3⟩ := hcase
      cases st with
      | none => exact absurd rfl h1
      | some t =>
        have hok' : σ.prevOk l n t = true := by
          simpa only [Op.ok, h2, h3, Bool.not_true, Bool.false_or] using hok
        have hlog : (Op.addOrUpdateNode l n a (some t)).log σ = .pad l n := by
          simp [Op.log, h2, h3, -List.contains_eq_mem]
        have hs : σ.addOrUpdateNode l n a (some t) = σ.emplacePrev l n t a := by
          simp [Spec.addOrUpdateNode, h2, h3, -List.contains_eq_mem]
        rw [hlog]
        simp only [Spec.step, Graph.step, hs, h.addOrUpdateNode_prev (some a) t h3 h2]
        exact prev l n t a hok'
  | setNodeAttrs n a => exact plain _ _ (h.setNodeAttributes hw n a .deleted) (hw.setNodeAttrs n a)
  | insertEdge s t info => exact plain _ _ (h.insertEdge hw s t info .deleted) (hw.insertEdge s t info)
  | insertParentEdge s t info =>
    have hs : σ.key? s = none ∨ σ.key? s ≠ σ.key? t ∨ σ.hasEdge s t = true := by
      simpa [Op.ok, or_assoc] using hok
    exact plain _ _ (h.insertParentEdge hw s t info hs .deleted) (hw.insertParentEdge s t info hs)
  | addOrUpdateEdge s t info =>
    have hs : σ.hasEdge s t = true → info.isSome = true := by
      simp only [Op.ok, Bool.or_eq_true, Bool.not_eq_true'] at hok
      intro h1; rcases hok with h2 | h2
      · rw [h1] at h2; cases h2
      · exact h2
    exact plain _ _ (h.addOrUpdateEdge hw s t info hs .deleted) (hw.addOrUpdateEdge s t info)
  | setEdgeAttrs s t a =>
    simp only [Op.ok, Bool.and_eq_true] at hok
    obtain ⟨h1, h2⟩ := hok
    obtain ⟨ks, hs⟩ := Spec.key_of_contains h1
    obtain ⟨kt, ht⟩ := Spec.key_of_contains h2
    exact plain _ _ (h.setEdgeAttributes hw hs ht a .deleted) (hw.setEdgeAttrs s t a)
  | findEdge s t =>
    simp only [Op.ok, Bool.and_eq_true] at hok
    obtain ⟨h1, h2⟩ := hok
    obtain ⟨ks, hs⟩ := Spec.key_of_contains h1
    obtain ⟨kt, ht⟩ := Spec.key_of_contains h2
    obtain ⟨g', e, ha⟩ := h.findEdge hw hs ht .deleted
    refine ⟨g', _, by simp [Graph.step, e]; rfl, ?_, ha.r, hw.touch _, ha.nlog, ha.elog⟩
    intro o ho
    simp only [Spec.step, Option.some.injEq] at ho
    rw [← ho]; rfl
  | removeNode n => exact plain _ _ (h.removeNode hw (hw.noCross hok)) (hw.removeNode n)
  | removeEdge s t => exact plain _ _ (h.removeEdge hw s t .deleted) (hw.removeEdge s t)
  | mergeNodes f t =>
    simp only [Op.ok, Bool.and_eq_true] at hok
    obtain ⟨h1, h2⟩ := hok
    obtain ⟨g', e, ha, hs⟩ := h.mergeNodes hw (f := f) (t := t) (hw.noCross h1) (by
      intro l p hk
      rw [hk] at h2
      simpa using h2)
    refine ⟨g', .bool (σ.mergeNodes f t).2, by simp only [Graph.step, e]; rfl, ?_, ha.r, hs, ha.nlog, ha.elog⟩
    intro o ho; simpa [Spec.step, Spec.ans] using ho
  | setMesh m =>
    refine ⟨g.setMesh m, .unit, rfl, ?_, (h.setMesh m).r, hw.setMesh m, (h.setMesh m).nlog, (h.setMesh m).elog⟩
    intro o ho; simpa [Spec.step] using ho
  | markStale =>
    refine ⟨g.markEdgesAsStale, .unit, rfl, ?_, h.markStale, hw.markStale, ?_, ?_⟩
    · intro o ho; simpa [Spec.step] using ho
    · rw [Graph.markEdgesAsStale_view]; intro k n; simp
    · rw [Graph.markEdgesAsStale_view]; intro k n; simp [View.hasE, EdgeContainer.setStale]
  | sweep =>
    obtain ⟨g', e, ha⟩ := h.sweep hw
    refine ⟨g', .unit, by simp [Graph.step, e], ?_, ha.r, hw.sweep, ha.nlog, ha.elog⟩
    intro o ho; simpa [Spec.step] using ho
  | newNodes c =>
    obtain ⟨h1, h2, h3⟩ := h.getNewNodes c
    exact ⟨_, _, rfl, fun o ho => (by simp [Spec.step] at ho), h1, hw, h2, h3⟩
  | removedNodes c =>
    obtain ⟨h1, h2, h3⟩ := h.getRemovedNodes c
    exact ⟨_, _, rfl, fun o ho => (by simp [Spec.step] at ho), h1, hw, h2, h3⟩
  | newEdges c =>
    obtain ⟨h1, h2⟩ := h.getNewEdges c
    refine ⟨_, _, rfl, fun o ho => (by simp [Spec.step] at ho), h1, hw, ?_, ?_⟩
    · rw [h2]
    · rw [h2]; intro p key; exact EdgeContainer.status_getNew _ c key
  | removedEdges c =>
    obtain ⟨h1, h2⟩ := h.getRemovedEdges c
    refine ⟨_, _, rfl, fun o ho => (by simp [Spec.step] at ho), h1, hw, ?_, ?_⟩
    · rw [h2]
    · rw [h2]; intro p key; exact EdgeContainer.status_getRemoved _ c key

end Verif
