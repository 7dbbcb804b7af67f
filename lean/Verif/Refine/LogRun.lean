import Verif.Refine.Logs
import Verif.Refine.Marks
/-! # The change logs along a whole history -/

namespace Verif

variable {g g' : Graph} {σ σ' : Spec} {outs : List Out}

/-- First step of a run that ended well. -/
theorem R.run_cons (h : R g σ) (hw : SWF σ) {op : Op} {ops : List Op} (hok : Op.okAll σ (op :: ops) = true)
    (e : g.run (op :: ops) = .ok (g', outs)) : ∃ g1 outs', R g1 (σ.step op).1 ∧ SWF (σ.step op).1 ∧
      Logged σ g.view g1.view (op.log σ) ∧ g1.run ops = .ok (g', outs') ∧ Op.okAll (σ.step op).1 ops = true ∧ op.ok σ = true := by
  simp only [Op.okAll, Bool.and_eq_true] at hok
  obtain ⟨g1, o, e1, _, h1, hw1, hl⟩ := h.step hw op hok.1
  simp only [Graph.run, e1, Res.bind_ok] at e
  cases e2 : g1.run ops with
  | ok r =>
    rw [e2] at e
    simp only [Res.bind_ok, Res.ok.injEq, Prod.mk.injEq] at e
    refine ⟨g1, r.2, h1, hw1, hl, ?_, hok.2, hok.1⟩
    rw [e2, ← e.1]
  | throw x => rw [e2] at e; simp at e
  | ub => rw [e2] at e; simp at e

theorem exists_take_cons {P : List Op → Prop} (op : Op) (mid : List Op) :
    (∃ j, P ((op :: mid).take j)) ↔ P [] ∨ ∃ j, P (op :: mid.take j) := by
  constructor
  · rintro ⟨j, h⟩
    cases j with
    | zero => exact .inl h
    | succ j => exact .inr ⟨j, h⟩
  · rintro (h | ⟨j, h⟩)
    · exact ⟨0, h⟩
    · exact ⟨j + 1, h⟩

theorem forall_take_cons {P : List Op → Prop} (op : Op) (mid : List Op) :
    (∀ j, P ((op :: mid).take j)) ↔ P [] ∧ ∀ j, P (op :: mid.take j) := by
  constructor
  · intro h; exact ⟨h 0, fun j => h (j + 1)⟩
  · rintro ⟨h1, h2⟩ j
    cases j with
    | zero => exact h1
    | succ j => exact h2 j

theorem exists_take_nil {P : List Op → Prop} : (∃ j, P (([] : List Op).take j)) ↔ P [] := by simp

theorem R.new_run (h : R g σ) (hw : SWF σ) {mid : List Op} (hok : Op.okAll σ mid = true) (e : g.run mid = .ok (g', outs))
    (hmid : Op.newNodes true ∉ mid) (n : NodeId) :
    (∃ k, g'.isNew k n) ↔ (σ.after mid).nodes.contains n = true ∧
      ((∃ j, (σ.after (mid.take j)).nodes.contains n = false) ∨ ∃ k, g.isNew k n) := by
  induction mid generalizing g σ outs with
  | nil =>
    simp only [Graph.run, Res.ok.injEq, Prod.mk.injEq] at e
    obtain ⟨rfl, _⟩ := e
    rw [exists_take_nil (P := fun m => (σ.after m).nodes.contains n = false)]
    simp only [Spec.after_nil]
    constructor
    · rintro ⟨k, hk⟩; exact ⟨by rw [Spec.contains_of_key?, h.new_key hk]; rfl, .inr ⟨k, hk⟩⟩
    · rintro ⟨h1, h2 | h2⟩
      · rw [h1] at h2; cases h2
      · exact h2
  | cons op mid ih =>
    obtain ⟨g1, outs', h1, hw1, hl, e1, hok1, _⟩ := h.run_cons hw hok e
    rw [List.mem_cons, not_or] at hmid
    rw [ih h1 hw1 hok1 e1 hmid.2, h.new_step op h1 hl (Ne.symm hmid.1) n,
      exists_take_cons (P := fun m => (σ.after m).nodes.contains n = false)]
    simp only [Spec.after_cons, Spec.after_nil]
    refine and_congr_right fun _ => ?_
    constructor
    · rintro (hj | ⟨_, hj | hj⟩)
      · exact .inl (.inr hj)
      · exact .inl (.inl hj)
      · exact .inr hj
    · intro hh
      cases hc : (σ.step op).1.nodes.contains n with
      | false => exact .inl ⟨0, by simpa using hc⟩
      | true =>
        rcases hh with (hj | hj) | hj
        · exact .inr ⟨rfl, .inl hj⟩
        · exact .inl hj
        · exact .inr ⟨rfl, .inr hj⟩

theorem R.gone_run (h : R g σ) (hw : SWF σ) {mid : List Op} (hok : Op.okAll σ mid = true) (e : g.run mid = .ok (g', outs))
    (hmid : Op.removedNodes true ∉ mid) (hwipe : ∀ op ∈ mid, op.wipes = false) {n : NodeId}
    (k : LayerKey) :
    g'.isGone k n ↔ (σ.after mid).key? n ≠ some k ∧
      ((∃ j, (σ.after (mid.take j)).key? n = some k) ∨ g.isGone k n ∨
        ∃ j op, mid[j]? = some op ∧ (σ.after (mid.take j)).pads op k n) := by
  induction mid generalizing g σ outs with
  | nil =>
    simp only [Graph.run, Res.ok.injEq, Prod.mk.injEq] at e
    obtain ⟨rfl, _⟩ := e
    rw [exists_take_nil (P := fun m => (σ.after m).key? n = some k)]
    simp only [Spec.after_nil]
    constructor
    · intro hk; exact ⟨h.gone_not_live hk, .inr (.inl hk)⟩
    · rintro ⟨h1, h2 | h2 | ⟨j, op, h2, _⟩⟩
      · exact absurd h2 h1
      · exact h2
      · simp at h2
  | cons op mid ih =>
    obtain ⟨g1, outs', h1, hw1, hl, e1, hok1, hop⟩ := h.run_cons hw hok e
    rw [List.mem_cons, not_or] at hmid
    have hpads : (∃ j op', (op :: mid)[j]? = some op' ∧ (σ.after ((op :: mid).take j)).pads op' k n) ↔
        σ.pads op k n ∨ ∃ j op', mid[j]? = some op' ∧ ((σ.step op).1.after (mid.take j)).pads op' k n := by
      constructor
      · rintro ⟨j, op', q1, q2⟩
        cases j with
        | zero => simp only [List.getElem?_cons_zero, Option.some.injEq] at q1; subst q1; exact .inl q2
        | succ j => exact .inr ⟨j, op', by simpa using q1, q2⟩
      · rintro (q | ⟨j, op', q1, q2⟩)
        · exact ⟨0, op, rfl, q⟩
        · exact ⟨j + 1, op', by simpa using q1, q2⟩
    rw [ih h1 hw1 hok1 e1 hmid.2 (fun o ho => hwipe o (List.mem_cons_of_mem _ ho)),
      h.gone_step_pads op hop h1 hl (Ne.symm hmid.1) (hwipe op List.mem_cons_self) n k,
      exists_take_cons (P := fun m => (σ.after m).key? n = some k), hpads]
    simp only [Spec.after_cons, Spec.after_nil]
    refine and_congr_right fun _ => ?_
    constructor
    · rintro (hj | ⟨_, hj | hj | hj⟩ | hj)
      · exact .inl (.inr hj)
      · exact .inl (.inl hj)
      · exact .inr (.inl hj)
      · exact .inr (.inr (.inl hj))
      · exact .inr (.inr (.inr hj))
    · intro hh
      by_cases hc : (σ.step op).1.key? n = some k
      · exact .inl ⟨0, by simpa using hc⟩
      · rcases hh with (hj | hj) | hj | hj | hj
        · exact .inr (.inl ⟨hc, .inl hj⟩)
        · exact .inl hj
        · exact .inr (.inl ⟨hc, .inr (.inl hj)⟩)
        · exact .inr (.inl ⟨hc, .inr (.inr hj)⟩)
        · exact .inr (.inr hj)

/-- `mergeNodes` can only take its first argument away. -/
theorem Spec.mergeNodes_gone {f t n : NodeId} {k : LayerKey} (hk : σ.key? n = some k)
    (hk' : (σ.step (.mergeNodes f t)).1.key? n ≠ some k) : f = n := by
  apply Classical.byContradiction
  intro hn
  apply hk'
  simp only [Spec.step, Spec.ans]
  unfold Spec.mergeNodes
  split
  · exact hk
  · split
    · split
      · exact hk
      · simpa [Spec.key?, OMap.find?_erase, hn] using hk
    · exact hk

/-- A well-behaved merge takes a node from a static layer. -/
theorem Spec.mergeNodes_static {f t : NodeId} {k : LayerKey} (hok : (Op.mergeNodes f t).ok σ = true) (hk : σ.key? f = some k)
    (hk' : (σ.step (.mergeNodes f t)).1.key? f ≠ some k) : k.dynamic = false := by
  cases k with
  | static l => rfl
  | dyn l p =>
    exfalso
    apply hk'
    simp only [Op.ok, Bool.and_eq_true] at hok
    simp only [Spec.step, Spec.ans]
    unfold Spec.mergeNodes
    split
    · exact hk
    · rename_i hft
      split
      · rename_i kf kt hf ht
        split
        · exact hk
        · rename_i hkk
          have hkk := Classical.not_not.1 hkk
          subst hkk
          rw [hk] at hf; cases hf
          simp [hk, ht, hft] at hok
      · exact hk

theorem R.merged_run (h : R g σ) (hw : SWF σ) {mid : List Op} (hok : Op.okAll σ mid = true) (e : g.run mid = .ok (g', outs))
    (n : NodeId) {k : LayerKey} (hkd : k.dynamic = false) :
    g'.isMerged k n ↔
      ((∀ op ∈ mid, op.wipes = false) ∧ (∀ j, (σ.after (mid.take j)).key? n ≠ some k) ∧ g.isMerged k n) ∨
      ∃ a t b, mid = a ++ .mergeNodes n t :: b ∧ (σ.after a).key? n = some k ∧ (∀ op ∈ b, op.wipes = false) ∧
        ∀ j, (σ.after (a ++ .mergeNodes n t :: b.take j)).key? n ≠ some k := by
  induction mid generalizing g σ outs with
  | nil =>
    simp only [Graph.run, Res.ok.injEq, Prod.mk.injEq] at e
    obtain ⟨rfl, _⟩ := e
    constructor
    · intro hk; exact .inl ⟨by simp, by simpa using h.merged_not_live hk, hk⟩
    · rintro (⟨_, _, hk⟩ | ⟨a, t, b, hk, _⟩)
      · exact hk
      · simp at hk
  | cons op mid ih =>
    obtain ⟨g1, outs', h1, hw1, hl, e1, hok1, hop⟩ := h.run_cons hw hok e
    rw [ih h1 hw1 hok1 e1]
    have split : (∃ a t b, op :: mid = a ++ .mergeNodes n t :: b ∧ (σ.after a).key? n = some k ∧ (∀ op ∈ b, op.wipes = false) ∧
        ∀ j, (σ.after (a ++ .mergeNodes n t :: b.take j)).key? n ≠ some k) ↔
      (∃ t, op = .mergeNodes n t ∧ σ.key? n = some k ∧ (∀ op ∈ mid, op.wipes = false) ∧
        ∀ j, ((σ.step op).1.after (mid.take j)).key? n ≠ some k) ∨
      ∃ a t b, mid = a ++ .mergeNodes n t :: b ∧ ((σ.step op).1.after a).key? n = some k ∧ (∀ op ∈ b, op.wipes = false) ∧
        ∀ j, ((σ.step op).1.after (a ++ .mergeNodes n t :: b.take j)).key? n ≠ some k := by
      constructor
      · rintro ⟨a, t, b, h1, h2, h3, h4⟩
        cases a with
        | nil =>
          simp only [List.nil_append, List.cons.injEq] at h1
          obtain ⟨rfl, rfl⟩ := h1
          exact .inl ⟨t, rfl, h2, h3, h4⟩
        | cons x a =>
          simp only [List.cons_append, List.cons.injEq] at h1
          obtain ⟨rfl, rfl⟩ := h1
          exact .inr ⟨a, t, b, rfl, h2, h3, h4⟩
      · rintro (⟨t, rfl, h2, h3, h4⟩ | ⟨a, t, b, rfl, h2, h3, h4⟩)
        · exact ⟨[], t, mid, rfl, h2, h3, h4⟩
        · exact ⟨op :: a, t, b, rfl, h2, h3, h4⟩
    rw [split, ← or_assoc]
    refine or_congr ?_ Iff.rfl
    rw [forall_take_cons (P := fun m => (σ.after m).key? n ≠ some k)]
    simp only [Spec.after_cons, Spec.after_nil, List.mem_cons, forall_eq_or_imp]
    cases hwp : op.wipes with
    | true =>
      have hlog : op.log σ = .wipe := by cases op <;> simp_all [Op.wipes, Op.log]
      rw [hlog] at hl
      have : ¬ g1.isMerged k n := by unfold Graph.isMerged; rw [hl.1]; simp
      simp only [this, and_false, Bool.true_eq_false, false_and, false_or]
      rw [false_iff]
      rintro ⟨t, rfl, _⟩; cases hwp
    | false =>
      rw [h.merged_step op h1 hl hwp n hkd]
      constructor
      · rintro ⟨q1, q2, q3, ⟨q4, f, t, q5⟩ | q4⟩
        · subst q5
          have hfn := Spec.mergeNodes_gone q4 q3
          subst hfn
          exact .inr ⟨t, rfl, q4, q1, q2⟩
        · exact .inl ⟨⟨rfl, q1⟩, ⟨h.merged_not_live q4, q2⟩, q4⟩
      · rintro (⟨⟨_, q1⟩, ⟨q2, q3⟩, q4⟩ | ⟨t, q1, q2, q3, q4⟩)
        · exact ⟨q1, q3, by simpa using q3 0, .inr q4⟩
        · exact ⟨q3, q4, by simpa using q4 0, .inl ⟨q2, n, t, q1⟩⟩

theorem SWF.key_form (hw : SWF σ) {key : EdgeKey} (h : σ.edges.contains key = true) :
    ∃ a b, key = EdgeKey.of a b ∧ σ.hasEdge a b = true := by
  obtain ⟨x, hx⟩ := OMap.contains_eq_true.1 h
  obtain ⟨h1, _⟩ := hw.edge key x hx
  exact ⟨x.src, x.tgt, h1, by unfold Spec.hasEdge; rw [← h1]; exact h⟩

theorem SWF.at_of_contains (hw : SWF σ) {key : EdgeKey} (h : σ.edges.contains key = true) : ∃ c, σ.at c key = true := by
  obtain ⟨a, b, rfl, he⟩ := hw.key_form h
  obtain ⟨_, h1, h2⟩ := hw.hasEdge_nodes he
  obtain ⟨ka, ha⟩ := Spec.key_of_contains h1
  obtain ⟨kb, hb⟩ := Spec.key_of_contains h2
  exact ⟨place ka kb, by simp [Spec.at, h, Spec.placeOf_of ha hb]⟩

theorem Spec.at_contains {c : Place} {key : EdgeKey} (h : σ.at c key = true) : σ.edges.contains key = true := by
  unfold Spec.at at h; simp only [Bool.and_eq_true] at h; exact h.1
theorem Spec.at_inj {c c' : Place} {key : EdgeKey} (h : σ.at c key = true) (h' : σ.at c' key = true) : c = c' := by
  simp only [Spec.at, Bool.and_eq_true, decide_eq_true_eq] at h h'
  rw [h.2] at h'; exact Option.some.inj h'.2

theorem Spec.at_step (hw : SWF σ) {op : Op} (hw' : SWF (σ.step op).1) {c c' : Place} {key : EdgeKey} (h : σ.at c key = true)
    (h' : (σ.step op).1.at c' key = true) : c = c' := by
  obtain ⟨a, b, rfl, he⟩ := hw.key_form (Spec.at_contains h)
  have he' : (σ.step op).1.hasEdge a b = true := Spec.at_contains h'
  have := Spec.placeOf_step hw hw' he he'
  simp only [Spec.at, Bool.and_eq_true, decide_eq_true_eq] at h h'
  rw [h.2, h'.2] at this
  exact (Option.some.inj this).symm

theorem R.newE_step' (h : R g σ) (hw : SWF σ) (op : Op) (h' : R g' (σ.step op).1) (hw' : SWF (σ.step op).1)
    (hl : Logged σ g.view g'.view (op.log σ)) (hop : op ≠ .newEdges true) (key : EdgeKey) :
    (∃ c, g'.isNewE c key) ↔ (σ.step op).1.edges.contains key = true ∧ (σ.edges.contains key = false ∨ ∃ c, g.isNewE c key) := by
  constructor
  · rintro ⟨c, hc⟩
    obtain ⟨h1, h2⟩ := (h.newE_step op h' hl hop c key).1 hc
    refine ⟨Spec.at_contains h1, ?_⟩
    rcases h2 with h2 | h2
    · cases hx : σ.edges.contains key with
      | false => exact .inl rfl
      | true =>
        obtain ⟨c0, h3⟩ := hw.at_of_contains hx
        have := Spec.at_step hw hw' h3 h1
        subst this; rw [h3] at h2; cases h2
    · exact .inr ⟨c, h2⟩
  · rintro ⟨h1, h2⟩
    obtain ⟨c, hc⟩ := hw'.at_of_contains h1
    refine ⟨c, (h.newE_step op h' hl hop c key).2 ⟨hc, ?_⟩⟩
    rcases h2 with h2 | ⟨c0, h2⟩
    · left; unfold Spec.at; rw [h2]; rfl
    · have := Spec.at_step hw hw' (h.newE_at h2) hc
      subst this; exact .inr h2

theorem R.newE_run (h : R g σ) (hw : SWF σ) {mid : List Op} (hok : Op.okAll σ mid = true) (e : g.run mid = .ok (g', outs))
    (hmid : Op.newEdges true ∉ mid) (key : EdgeKey) :
    (∃ c, g'.isNewE c key) ↔ (σ.after mid).edges.contains key = true ∧
      ((∃ j, (σ.after (mid.take j)).edges.contains key = false) ∨ ∃ c, g.isNewE c key) := by
  induction mid generalizing g σ outs with
  | nil =>
    simp only [Graph.run, Res.ok.injEq, Prod.mk.injEq] at e
    obtain ⟨rfl, _⟩ := e
    rw [exists_take_nil (P := fun m => (σ.after m).edges.contains key = false)]
    simp only [Spec.after_nil]
    constructor
    · rintro ⟨k, hk⟩; exact ⟨Spec.at_contains (h.newE_at hk), .inr ⟨k, hk⟩⟩
    · rintro ⟨h1, h2 | h2⟩
      · rw [h1] at h2; cases h2
      · exact h2
  | cons op mid ih =>
    obtain ⟨g1, outs', h1, hw1, hl, e1, hok1, _⟩ := h.run_cons hw hok e
    rw [List.mem_cons, not_or] at hmid
    rw [ih h1 hw1 hok1 e1 hmid.2, h.newE_step' hw op h1 hw1 hl (Ne.symm hmid.1) key,
      exists_take_cons (P := fun m => (σ.after m).edges.contains key = false)]
    simp only [Spec.after_cons, Spec.after_nil]
    refine and_congr_right fun _ => ?_
    constructor
    · rintro (hj | ⟨_, hj | hj⟩)
      · exact .inl (.inr hj)
      · exact .inl (.inl hj)
      · exact .inr hj
    · intro hh
      cases hc : (σ.step op).1.edges.contains key with
      | false => exact .inl ⟨0, by simpa using hc⟩
      | true =>
        rcases hh with (hj | hj) | hj
        · exact .inr ⟨rfl, .inl hj⟩
        · exact .inl hj
        · exact .inr ⟨rfl, .inr hj⟩

theorem R.goneE_run (h : R g σ) (hw : SWF σ) {mid : List Op} (hok : Op.okAll σ mid = true) (e : g.run mid = .ok (g', outs))
    (hmid : Op.removedEdges true ∉ mid) (hwipe : ∀ op ∈ mid, op.wipes = false) (c : Place) (key : EdgeKey) :
    g'.isGoneE c key ↔ (σ.after mid).at c key = false ∧
      ((∃ j, (σ.after (mid.take j)).at c key = true) ∨ g.isGoneE c key) := by
  induction mid generalizing g σ outs with
  | nil =>
    simp only [Graph.run, Res.ok.injEq, Prod.mk.injEq] at e
    obtain ⟨rfl, _⟩ := e
    rw [exists_take_nil (P := fun m => (σ.after m).at c key = true)]
    simp only [Spec.after_nil]
    constructor
    · intro hk; exact ⟨h.goneE_at hk, .inr hk⟩
    · rintro ⟨h1, h2 | h2⟩
      · rw [h1] at h2; cases h2
      · exact h2
  | cons op mid ih =>
    obtain ⟨g1, outs', h1, hw1, hl, e1, hok1, hop⟩ := h.run_cons hw hok e
    rw [List.mem_cons, not_or] at hmid
    rw [ih h1 hw1 hok1 e1 hmid.2 (fun o ho => hwipe o (List.mem_cons_of_mem _ ho)),
      h.goneE_step op h1 hl (Ne.symm hmid.1) (hwipe op List.mem_cons_self) c key,
      exists_take_cons (P := fun m => (σ.after m).at c key = true)]
    simp only [Spec.after_cons, Spec.after_nil]
    refine and_congr_right fun _ => ?_
    constructor
    · rintro (hj | ⟨_, hj | hj⟩)
      · exact .inl (.inr hj)
      · exact .inl (.inl hj)
      · exact .inr hj
    · intro hh
      cases hc : (σ.step op).1.at c key with
      | true => exact .inl ⟨0, by simpa using hc⟩
      | false =>
        rcases hh with (hj | hj) | hj
        · exact .inr ⟨rfl, .inl hj⟩
        · exact .inl hj
        · exact .inr ⟨rfl, .inr hj⟩

/-! ## Splitting a history -/

/-- Every prefix of a well-behaved history is one. -/
theorem Reached.take {ids : List LayerId} {a b : List Op} (h : Reached ids (a ++ b) g) : ∃ g1, Reached ids a g1 := by
  have hok := h.ok
  rw [Op.okAll_append, Bool.and_eq_true] at hok
  obtain ⟨g1, outs, e, _⟩ := exec_ok h.nonempty hok.1
  exact ⟨g1, h.nonempty, hok.1, outs, e⟩

theorem Reached.take_mid {ids : List LayerId} {a b : List Op} (h : Reached ids (a ++ b) g) (j : Nat) :
    ∃ g1, Reached ids (a ++ b.take j) g1 := by
  rw [← List.take_append_drop j b, ← List.append_assoc] at h
  exact h.take

theorem Reached.unique {ids : List LayerId} {a : List Op} {g1 : Graph} (h : Reached ids a g) (h1 : Reached ids a g1) : g1 = g := by
  obtain ⟨o, e⟩ := h.run
  obtain ⟨o1, e1⟩ := h1.run
  rw [e] at e1; cases e1; rfl

/-- The second half of a history, as a run. -/
theorem Reached.tail {ids : List LayerId} {a b : List Op} {g1 : Graph} (h : Reached ids (a ++ b) g) (h1 : Reached ids a g1) :
    ∃ outs, g1.run b = .ok (g, outs) ∧ Op.okAll ((Spec.init ids).after a) b = true := by
  obtain ⟨o, e⟩ := h.run
  obtain ⟨o1, e1⟩ := h1.run
  have hok := h.ok
  rw [Op.okAll_append, Bool.and_eq_true] at hok
  unfold Graph.exec at e e1
  cases hc : Graph.create ids with
  | ok g0 =>
    simp only [hc, Res.bind_ok] at e e1
    rw [Graph.run_append, e1] at e
    simp only [Res.bind_ok] at e
    cases hr : g1.run b with
    | ok r =>
      rw [hr] at e
      simp only [Res.bind_ok, Res.ok.injEq, Prod.mk.injEq] at e
      exact ⟨r.2, by rw [← e.1], hok.2⟩
    | throw x => rw [hr] at e; simp at e
    | ub => rw [hr] at e; simp at e
  | throw x => simp [hc] at e
  | ub => simp [hc] at e

/-- The state before the last call. -/
theorem Reached.last {ids : List LayerId} {a : List Op} {op : Op} (h : Reached ids (a ++ [op]) g) :
    ∃ g1, Reached ids a g1 ∧ R g1 ((Spec.init ids).after a) ∧
      Logged ((Spec.init ids).after a) g1.view g.view (op.log ((Spec.init ids).after a)) := by
  obtain ⟨g1, h1⟩ := h.take
  have hok := h.ok
  rw [Op.okAll_append, Bool.and_eq_true] at hok
  obtain ⟨g2, o, _, h2, _, hl⟩ := h1.step op (by simpa [Op.okAll] using hok.2)
  have := h2.unique h
  subst this
  exact ⟨g1, h1, h1.rep.1, hl⟩

end Verif

namespace Verif

variable {g g' : Graph} {ids : List LayerId} {pre mid : List Op}

theorem Reached.create_eq (h : Reached ids [] g) : g = Graph.clear { layerIds := ids } := by
  obtain ⟨o, e⟩ := h.run
  simp only [Graph.exec, Graph.create, h.nonempty, if_false, Res.bind_ok, Graph.run, Res.ok.injEq, Prod.mk.injEq] at e
  exact e.1.symm

/-- Nothing is new right after construction or a clearing query. -/
theorem Reached.no_new (h : Reached ids pre g) (hp : pre = [] ∨ ∃ p, pre = p ++ [.newNodes true]) (n : NodeId) :
    ¬ ∃ k, g.isNew k n := by
  rintro ⟨k, hk⟩
  unfold Graph.isNew at hk
  rcases hp with rfl | ⟨p, rfl⟩
  · rw [h.create_eq, Graph.clear_st] at hk; cases hk
  · obtain ⟨g1, _, _, hl⟩ := h.last
    rw [hl.1 k n] at hk
    cases h2 : g1.view.st k n with
    | none => rw [h2] at hk; cases hk
    | some s => rw [h2] at hk; cases s <;> simp [seenN] at hk

theorem Reached.no_newE (h : Reached ids pre g) (hp : pre = [] ∨ ∃ p, pre = p ++ [.newEdges true]) (key : EdgeKey) :
    ¬ ∃ c, g.isNewE c key := by
  rintro ⟨c, hk⟩
  unfold Graph.isNewE at hk
  rcases hp with rfl | ⟨p, rfl⟩
  · rw [h.create_eq, Graph.clear_ec] at hk; cases hk
  · obtain ⟨g1, _, _, hl⟩ := h.last
    rw [hl.2 c key] at hk
    cases h2 : (g1.view.ec c).status.find? key with
    | none => rw [h2] at hk; cases hk
    | some s => rw [h2] at hk; cases s <;> simp [seenE] at hk

/-- Right after construction, a wipe or a clearing query, only merged nodes are reported as removed. -/
theorem Reached.no_gone (h : Reached ids pre g)
    (hp : pre = [] ∨ ∃ p op, pre = p ++ [op] ∧ (op = .removedNodes true ∨ op.wipes = true)) (k : LayerKey) (n : NodeId) :
    g.isGone k n ↔ k.dynamic = false ∧ g.isMerged k n := by
  have key : g.view.st k n ≠ some .deleted := by
    intro hk
    rcases hp with rfl | ⟨p, op, rfl, rfl | hw⟩
    · rw [h.create_eq, Graph.clear_st] at hk; cases hk
    · obtain ⟨g1, _, _, hl⟩ := h.last
      rw [hl.1 k n] at hk
      cases h2 : g1.view.st k n with
      | none => rw [h2] at hk; cases hk
      | some s => rw [h2] at hk; cases s <;> simp [forgetN] at hk
    · obtain ⟨g1, _, _, hl⟩ := h.last
      have hlog : op.log ((Spec.init ids).after p) = .wipe := by cases op <;> simp_all [Op.wipes, Op.log]
      rw [hlog] at hl
      rw [hl.1] at hk; cases hk
  unfold Graph.isGone Graph.isMerged
  simp [key]

theorem Reached.no_goneE (h : Reached ids pre g)
    (hp : pre = [] ∨ ∃ p op, pre = p ++ [op] ∧ (op = .removedEdges true ∨ op.wipes = true)) (c : Place) (key : EdgeKey) :
    ¬ g.isGoneE c key := by
  intro hk
  unfold Graph.isGoneE at hk
  rcases hp with rfl | ⟨p, op, rfl, rfl | hw⟩
  · rw [h.create_eq, Graph.clear_ec] at hk; cases hk
  · obtain ⟨g1, _, _, hl⟩ := h.last
    rw [hl.2 c key] at hk
    cases h2 : (g1.view.ec c).status.find? key with
    | none => rw [h2] at hk; cases hk
    | some s => rw [h2] at hk; cases s <;> simp [forgetE] at hk
  · obtain ⟨g1, _, _, hl⟩ := h.last
    have hlog : op.log ((Spec.init ids).after p) = .wipe := by cases op <;> simp_all [Op.wipes, Op.log]
    rw [hlog] at hl
    rw [hl.2] at hk; cases hk

/-! ## Non-clearing queries change nothing -/

theorem OMap.map_id' {K V : Type} [DecidableEq K] [OKey K] (m : OMap K V) {f : K → V → V} (h : ∀ k v, f k v = v) : m.map f = m := by
  apply OMap.ext
  intro k
  rw [OMap.find?_map]
  cases m.find? k <;> simp [h]

theorem Graph.visit_id {α : Type} (g : Graph) {f : BaseLayer → BaseLayer × List α} (h : ∀ b, (f b).1 = b) :
    (g.visitLayers f).1 = g := by
  unfold visitLayers
  simp only [h]
  rw [OMap.map_id' _ (fun _ _ => rfl), OMap.map_id' _ (fun _ m => OMap.map_id' m (fun _ _ => rfl))]

theorem Graph.getNewNodes_false (g : Graph) : (g.getNewNodes false).1 = g :=
  g.visit_id (by intro b; cases b <;> simp [BaseLayer.getNewNodes, Layer.getNewNodes, DynLayer.getNewNodes])
theorem Graph.getRemovedNodes_false (g : Graph) : (g.getRemovedNodes false).1 = g :=
  g.visit_id (by intro b; cases b <;> simp [BaseLayer.getRemovedNodes, Layer.getRemovedNodes, DynLayer.getRemovedNodes])

theorem EdgeContainer.getNew_false (c : EdgeContainer) : (c.getNew false).1 = c := by simp [getNew]
theorem EdgeContainer.getRemoved_false (c : EdgeContainer) : (c.getRemoved false).1 = c := by simp [getRemoved]

theorem Graph.getNewEdges_false (g : Graph) : (g.getNewEdges false).1 = g := by
  simp only [getNewEdges, EdgeContainer.getNew_false]
  rw [g.visit_id (by intro b; cases b <;> simp [BaseLayer.setEc, BaseLayer.ec])]
theorem Graph.getRemovedEdges_false (g : Graph) : (g.getRemovedEdges false).1 = g := by
  simp only [getRemovedEdges, EdgeContainer.getRemoved_false]
  rw [g.visit_id (by intro b; cases b <;> simp [BaseLayer.setEc, BaseLayer.ec])]

end Verif
