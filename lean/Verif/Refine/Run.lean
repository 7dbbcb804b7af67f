import Verif.Refine.Step
import Verif.Model.Obs
/-! # Histories, and what is observable through the representation relation -/

namespace Verif

variable {g : Graph} {σ : Spec}

theorem R.run (h : R g σ) (hw : SWF σ) (ops : List Op) (hok : Op.okAll σ ops = true) :
    ∃ g' outs, g.run ops = .ok (g', outs) ∧ R g' (σ.after ops) ∧ SWF (σ.after ops) ∧ Agree (σ.run ops).2 outs := by
  induction ops generalizing g σ with
  | nil => exact ⟨g, [], rfl, h, hw, trivial⟩
  | cons op ops ih =>
    simp only [Op.okAll, Bool.and_eq_true] at hok
    obtain ⟨g1, o, e1, ho, h1, hw1, _⟩ := h.step hw op hok.1
    obtain ⟨g2, outs, e2, h2, hw2, ha⟩ := ih h1 hw1 hok.2
    refine ⟨g2, o :: outs, by simp [Graph.run, e1, e2], h2, hw2, ?_⟩
    simp only [Spec.run]
    cases hs : (σ.step op).2 with
    | none => exact ha
    | some x => exact ⟨ho x hs, ha⟩

theorem exec_ok {ids : List LayerId} (h : ids ≠ []) {ops : List Op} (hok : Op.okAll (Spec.init ids) ops = true) :
    ∃ g outs, Graph.exec ids ops = .ok (g, outs) ∧ R g ((Spec.init ids).after ops) ∧ SWF ((Spec.init ids).after ops) ∧
      Agree ((Spec.init ids).run ops).2 outs := by
  obtain ⟨g, e, hr⟩ := R.create h
  obtain ⟨g', outs, e', h1⟩ := hr.run (SWF.empty ids) ops hok
  exact ⟨g', outs, by simp [Graph.exec, e, e'], h1⟩

theorem Reached.rep {ids : List LayerId} {ops : List Op} (h : Reached ids ops g) :
    R g ((Spec.init ids).after ops) ∧ SWF ((Spec.init ids).after ops) := by
  obtain ⟨g', outs, e, h1, h2, _⟩ := exec_ok h.nonempty h.ok
  obtain ⟨outs', e'⟩ := h.run
  rw [e] at e'
  cases e'
  exact ⟨h1, h2⟩

theorem Graph.run_append (g : Graph) (a b : List Op) :
    g.run (a ++ b) = g.run a >>= fun r => r.1.run b >>= fun r' => .ok (r'.1, r.2 ++ r'.2) := by
  induction a generalizing g with
  | nil =>
    simp only [List.nil_append, run, Res.bind_ok]
    cases g.run b <;> simp
  | cons x a ih =>
    simp only [List.cons_append, run, ih]
    cases g.step x with
    | ok r =>
      simp only [Res.bind_ok]
      cases r.1.run a with
      | ok r1 =>
        simp only [Res.bind_ok]
        cases r1.1.run b <;> simp
      | throw e => simp
      | ub => simp
    | throw e => simp
    | ub => simp

/-- One more well-behaved call. -/
theorem Reached.step {ids : List LayerId} {ops : List Op} (h : Reached ids ops g) (op : Op)
    (hok : op.ok ((Spec.init ids).after ops) = true) : ∃ g' out, g.step op = .ok (g', out) ∧ Reached ids (ops ++ [op]) g' ∧
      (∀ o, (((Spec.init ids).after ops).step op).2 = some o → out = o) ∧
      Logged ((Spec.init ids).after ops) g.view g'.view (op.log ((Spec.init ids).after ops)) := by
  obtain ⟨h1, h2⟩ := h.rep
  obtain ⟨g', out, e, ho, _, _, hl⟩ := h1.step h2 op hok
  refine ⟨g', out, e, ⟨h.nonempty, ?_, ?_⟩, ho, hl⟩
  · simp [Op.okAll_append, h.ok, Op.okAll, hok]
  · obtain ⟨outs, e'⟩ := h.run
    refine ⟨outs ++ [out], ?_⟩
    unfold Graph.exec at e' ⊢
    cases hc : Graph.create ids with
    | ok g0 =>
      simp only [hc, Res.bind_ok] at e' ⊢
      simp [Graph.run_append, e', Graph.run, e]
    | throw x => simp [hc] at e'
    | ub => simp [hc] at e'

/-- One more well-behaved call of a mutator that answers `true`/`false`. -/
theorem Reached.mut {ids : List LayerId} {ops : List Op} (h : Reached ids ops g) (op : Op)
    {σ : Spec} (hσ : (Spec.init ids).after ops = σ) (hok : op.ok σ = true)
    {r : Res (Graph × Bool)} {s : Spec × Bool} (hg : g.step op = Graph.ans r) (hs : σ.step op = Spec.ans s) :
    ∃ g', r = .ok (g', s.2) ∧ Reached ids (ops ++ [op]) g' ∧ R g' s.1 ∧ SWF s.1 ∧
      Logged σ g.view g'.view (op.log σ) := by
  obtain ⟨g', out, e, hreach, ho, hl⟩ := h.step op (by rw [hσ]; exact hok)
  obtain ⟨hr', hw'⟩ := hreach.rep
  rw [Spec.after_append, hσ] at hr' hw'
  rw [hσ] at ho hl
  have h1 : (σ.after [op]) = s.1 := by simp [hs, Spec.ans]
  rw [h1] at hr' hw'
  refine ⟨g', ?_, hreach, hr', hw', hl⟩
  have hout : out = .bool s.2 := ho _ (by rw [hs]; rfl)
  rw [hg] at e
  cases r with
  | ok x =>
    obtain ⟨x1, x2⟩ := x
    simp only [Graph.ans, Res.bind_ok, Res.ok.injEq, Prod.mk.injEq] at e
    rw [← e.2] at hout
    cases hout
    rw [e.1]
  | throw x => cases e
  | ub => cases e

/-! ## Observations -/

theorem R.hasNode (h : R g σ) (n : NodeId) : g.hasNode n = σ.nodes.contains n := by
  have := h.lookup' n
  simp [Graph.hasNode, OMap.contains, this, Spec.key?]

theorem R.getLayerForNode (h : R g σ) (n : NodeId) : g.getLayerForNode n = σ.key? n := h.lookup' n

theorem R.findNode (h : R g σ) (hw : SWF σ) (n : NodeId) :
    g.findNode n = .ok ((σ.nodes.find? n).map (σ.mkNode n)) := by
  unfold Graph.findNode
  rw [h.lookup']
  cases hn : σ.nodes.find? n with
  | none => simp [Spec.key?, hn]
  | some i =>
    have hk : σ.key? n = some i.key := by simp [Spec.key?, hn]
    simp only [hk, Option.map_some]
    exact Graph.getNodePtr_ok (by rw [h.node]; simp [Spec.nodeRec, hn]) (h.kok hw hk)

theorem R.nodeObs (h : R g σ) (hw : SWF σ) (n : NodeId) : g.nodeObs n = σ.nodes.find? n := by
  unfold Graph.nodeObs
  rw [h.getLayerForNode, h.findNode hw]
  cases hn : σ.nodes.find? n with
  | none => simp [Spec.key?, hn]
  | some i => simp [Spec.key?, hn, Spec.mkNode]

theorem R.edgeObs (h : R g σ) (hw : SWF σ) (a b : NodeId) : g.edgeObs a b = σ.edge? a b := by
  unfold Graph.edgeObs
  by_cases hn : σ.key? a = none ∨ σ.key? b = none
  · rw [h.findEdge_missing hn]
    simp only
    cases he : σ.edge? a b with
    | none => rfl
    | some e =>
      have : σ.hasEdge a b = true := by
        unfold Spec.hasEdge; unfold Spec.edge? at he; exact OMap.contains_eq_true.2 ⟨e, he⟩
      obtain ⟨_, h1, h2⟩ := hw.hasEdge_nodes this
      obtain ⟨ka, h1⟩ := Spec.key_of_contains h1
      obtain ⟨kb, h2⟩ := Spec.key_of_contains h2
      simp [h1, h2] at hn
  · simp only [not_or, ← ne_eq, Option.ne_none_iff_exists'] at hn
    obtain ⟨⟨ka, ha⟩, ⟨kb, hb⟩⟩ := hn
    obtain ⟨g', e, _⟩ := h.findEdge hw ha hb .deleted
    rw [e]
    simp only [Spec.findEdge]
    cases σ.edge? a b <;> simp [Spec.mkEdge]

theorem R.adjObs (h : R g σ) (hw : SWF σ) (n : NodeId) :
    g.adjObs n = (σ.nodes.find? n).map (fun i => (σ.parents n i.key, σ.siblings n i.key, σ.children n i.key)) := by
  unfold Graph.adjObs
  rw [h.findNode hw]
  cases σ.nodes.find? n <;> simp [Spec.mkNode]

theorem Graph.layerFromKey_iff {g : Graph} {k : LayerKey} {b : BaseLayer} :
    g.layerFromKey k = .ok b ↔ g.layerAt? k = some b := by
  refine ⟨?_, Graph.layerFromKey_eq⟩
  cases k with
  | static l =>
    simp only [layerFromKey, layerAt?]
    cases g.layers.find? l <;> simp
  | dyn l p =>
    simp only [layerFromKey, layerAt?, dynLayer?]
    cases hm : g.dyns.find? l with
    | none => simp
    | some m =>
      simp only [Res.at?_some, Res.bind_ok, Option.bind_some]
      cases m.find? p <;> simp

theorem R.layer_hasNode (h : R g σ) {k : LayerKey} {b : BaseLayer} (hb : g.layerFromKey k = .ok b) (n : NodeId) :
    b.hasNode n = decide (σ.key? n = some k) := by
  rw [Graph.layerFromKey_iff] at hb
  have h1 : b.hasNode n = (b.nd n).isSome := BaseLayer.hasNode_eq (h.blive hb) n
  rw [h1]
  have h2 : b.nd n = σ.nodeRec k n := by rw [← h.node, Graph.view_node_of_layerAt? hb]
  rw [h2]
  unfold Spec.nodeRec Spec.key?
  cases σ.nodes.find? n with
  | none => simp
  | some i => by_cases e : i.key = k <;> simp [e]

end Verif
