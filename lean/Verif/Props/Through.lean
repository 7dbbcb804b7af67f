import Verif.Lemmas.Through2
import Verif.Spec.Throws
import Verif.Props.AnyHistory
import Verif.Props.GraphIO
/-!
# C58: catching an exception

What the graph looks like after a call has thrown, and what the rest of the program can rely on.
-/

namespace Verif
namespace Through

/-- The calls that only ever write after their last lookup that can fail. -/
def writesLast : Op → Bool
  | .removeEdge _ _ | .removeNode _ | .insertParentEdge _ _ _ | .mergeNodes _ _ | .sweep => false
  | _ => true

theorem strong_of_writesLast {g : Graph} {op : Op} (h : writesLast op = true) : (Graph.stepT op).Strong g := by
  cases op <;> first | cases h | skip
  all_goals simp only [Graph.stepT]
  all_goals first
    | exact Graph.strong_totalT _ g
    | exact Graph.strong_ansT (Graph.strong_totalT _ g)
    | exact Graph.strong_ansT (Graph.calm_emplaceDynT _ _ _ _ _ g).strong
    | exact Graph.strong_ansT (Graph.calm_emplacePrevT _ _ _ _ g).strong
    | exact Graph.strong_ansT (Graph.strong_addOrUpdateNodeT _ _ _ _ g)
    | exact Graph.strong_ansT (Graph.strong_setNodeAttributesT _ _ g)
    | exact Graph.strong_ansT (Graph.strong_insertEdgeT _ _ _ g)
    | exact Graph.strong_ansT (Graph.strong_addOrUpdateEdgeT _ _ _ g)
    | exact Graph.strong_ansT (Graph.strong_setEdgeAttributesT _ _ _ g)
    | exact Act.Strong.bind (Graph.strong_findEdgeT _ _ g) (fun _ _ _ => .inl (Act.calm_pure _ _))

theorem step_throws {g : Graph} {σ : Spec} (hr : R g σ) (hw : SWF σ) {op : Op} (h : op.throws σ = true) : Graph.stepT op g = .throw .outOfRange g := by
  have look : ∀ n, g.lookup.find? n = σ.key? n := hr.lookup'
  have miss : ∀ n, σ.nodes.contains n = false → σ.key? n = none := by
    intro n hn
    unfold OMap.contains at hn
    cases h : σ.nodes.find? n with
    | none => simp [Spec.key?, h]
    | some x => rw [h] at hn; cases hn
  have ne : ∀ s t, (!(σ.nodes.contains s && σ.nodes.contains t)) = true → σ.key? s = none ∨ σ.key? t = none := by
    intro s t h
    cases h1 : σ.nodes.contains s with
    | false => exact .inl (miss _ h1)
    | true =>
      cases h2 : σ.nodes.contains t with
      | false => exact .inr (miss _ h2)
      | true => rw [h1, h2] at h; cases h
  cases op <;> simp only [Op.throws] at h <;> first | cases h | skip
  case setEdgeAttrs s t a =>
    refine Graph.stepT_throw ?_ (strong_of_writesLast rfl)
    simp only [Graph.step, Graph.ans, Graph.setEdgeAttributes, look]
    rcases ne s t h with h | h <;> rw [h]
    · rfl
    · cases σ.key? s <;> rfl
  case findEdge s t =>
    refine Graph.stepT_throw ?_ (strong_of_writesLast rfl)
    simp only [Graph.step, Graph.findEdge, look]
    rcases ne s t h with h | h <;> rw [h]
    · rfl
    · cases σ.key? s <;> rfl
  case mergeNodes f t =>
    cases hf : σ.key? f with
    | none => rw [hf] at h; cases h
    | some k =>
      cases k with
      | static l => rw [hf] at h; cases h
      | dyn l p =>
        rw [hf] at h
        simp only [Bool.and_eq_true, decide_eq_true_eq] at h
        obtain ⟨⟨hne, ht⟩, hl⟩ := h
        have hx := hr.static_layer l
        rw [hl] at hx
        cases hg : g.layers.find? l with
        | none => rw [hg] at hx; cases hx
        | some x =>
          have hn : x.nodes.find? f = none := by
            have h1 : g.view.node (.static l) f = (BaseLayer.static x).nd f :=
              Graph.view_node_of_layerAt? (g := g) (k := .static l) (b := .static x) (by simp [Graph.layerAt?, hg]) f
            have h2 := hr.node (.static l) f
            rw [h1] at h2
            have h3 : σ.nodeRec (.static l) f = none := by
              unfold Spec.nodeRec
              unfold Spec.key? at hf
              cases hi : σ.nodes.find? f with
              | none => rfl
              | some i =>
                rw [hi] at hf
                have : i.key = .dyn l p := by simpa using hf
                simp [this]
            rw [h3] at h2
            simpa [BaseLayer.nd] using h2
          have hs : g.staticNode l f = .throw .outOfRange := by simp [Graph.staticNode, hg, Res.deref, hn, Res.at?]
          have hlf : g.lookup.find? f = some (.dyn l p) := by rw [look, hf]
          refine Graph.stepT_throw ?_ (Graph.strong_ansT (Graph.strong_mergeNodesT hlf hs))
          rw [← Graph.res_stepT]
          have ht' : g.lookup.find? t = some (.dyn l p) := by rw [look, ht]
          simp only [Graph.stepT, Graph.ansT, Act.res, Graph.mergeNodesT, bind, Act.bind, Act.get]
          simp only [hlf, ht', hne, if_false, ne_eq, not_true_eq_false, LayerKey.layer]
          simp only [Act.bind, Act.read, hs]
          rfl

theorem runCatching_mild {g : Graph} {σ : Spec} (hr : R g σ) (hw : SWF σ) {ops : List Op} (hm : Op.mild σ ops = true) :
    Op.okAll σ (Op.heard σ ops) = true ∧
      ∃ g' outs, g.run (Op.heard σ ops) = .ok (g', outs) ∧ g.runCatching ops = some (g', Op.weave .outOfRange σ ops outs) := by
  induction ops generalizing g σ with
  | nil => exact ⟨rfl, g, [], rfl, rfl⟩
  | cons op ops ih =>
    simp only [Op.mild, Op.heard, Op.weave, Graph.runCatching] at hm ⊢
    by_cases ht : op.throws σ = true
    · simp only [ht, if_true] at hm ⊢
      obtain ⟨h1, g', outs, e, e'⟩ := ih hr hw hm
      exact ⟨h1, g', outs, e, by rw [step_throws hr hw ht]; simp [e']⟩
    · simp only [ht, if_false, Bool.and_eq_true, Bool.false_eq_true] at hm ⊢
      obtain ⟨g1, o, e1, _, h1, hw1, _⟩ := hr.step hw op hm.1
      obtain ⟨h2, g', outs, e, e'⟩ := ih h1 hw1 hm.2
      refine ⟨by simp [Op.okAll, hm.1, h2], g', o :: outs, by simp [Graph.run, e1, e], ?_⟩
      rw [Graph.stepT_ok e1]
      simp [e']
end Through

variable {ids : List LayerId} {ops : List Op} {g : Graph}

/-- **C58 (strong guarantee).** In any graph at all, whatever history led to it: if a call other than `removeEdge`,
`removeNode`, `insertParentEdge`, `mergeNodes` and the stale sweep throws, the graph is exactly as it was before the
call. The same for the read-only `getEdge`. -/
theorem C58_strong_guarantee (g : Graph) :
    (∀ op e g', Through.writesLast op = true → Graph.stepT op g = .throw e g' → g' = g) ∧
    (∀ s t e g', Graph.getEdgeT s t g = .throw e g' → g' = g) :=
  ⟨fun _ e g' h => Through.strong_of_writesLast h e g', fun s t e g' => Graph.strong_getEdgeT s t g e g'⟩

/-- **C58 (what throws).** After a well-behaved history the calls `Op.throws` lists throw `std::out_of_range` and change
nothing; a well-behaved call does not throw. -/
theorem C58_throws (h : Reached ids ops g) (op : Op) :
    (op.throws ((Spec.init ids).after ops) = true → Graph.stepT op g = .throw .outOfRange g) ∧
    (op.ok ((Spec.init ids).after ops) = true → ∃ out g', Graph.stepT op g = .ok out g' ∧ Reached ids (ops ++ [op]) g') := by
  obtain ⟨hr, hw⟩ := h.rep
  refine ⟨fun ht => Through.step_throws hr hw ht, fun hk => ?_⟩
  obtain ⟨g', out, e, h', _⟩ := h.step op hk
  exact ⟨out, g', Graph.stepT_ok e, h'⟩

/-- **C58 (catching).** A program that makes well-behaved calls and calls that throw, and catches every exception, ends
with the graph of the program without the calls that throw, gets the same answers, and sees `std::out_of_range` at
exactly the calls `Op.throws` lists. -/
theorem C58_catching (hids : ids ≠ []) (hm : Op.mild (Spec.init ids) ops = true) :
    ∃ g0 g outs, Graph.create ids = .ok g0 ∧ Graph.exec ids (Op.heard (Spec.init ids) ops) = .ok (g, outs) ∧
      Reached ids (Op.heard (Spec.init ids) ops) g ∧
      g0.runCatching ops = some (g, Op.weave .outOfRange (Spec.init ids) ops outs) := by
  obtain ⟨g0, e, hr⟩ := Verif.R.create hids
  obtain ⟨h1, g, outs, e1, e2⟩ := Through.runCatching_mild hr (SWF.empty ids) hm
  have he : Graph.exec ids (Op.heard (Spec.init ids) ops) = .ok (g, outs) := by simp only [Graph.exec, e, Res.bind_ok]; exact e1
  exact ⟨g0, g, outs, e, he, ⟨hids, h1, outs, he⟩, e2⟩

namespace Through
open Sample

/-- A history with calls that throw, and calls after them. -/
def bumpy : List Op :=
  [.emplaceNode 2 10 at0, .findEdge 10 99, .emplaceNode 2 11 at0, .setEdgeAttrs 98 11 {}, .insertEdge 10 11 none,
   .emplaceDyn 2 0x61000000 1 at0 true, .emplaceDyn 2 0x61000000 2 at0 true, .mergeNodes 0x6100000000000000 0x6100000000000001,
   .findEdge 10 11, .removeNode 10, .findEdge 10 11]

example : Op.mild (Spec.init [2, 3]) bumpy = true ∧ (Op.heard (Spec.init [2, 3]) bumpy).length = 7 := by decide +kernel
/-- The exceptions are at calls 2, 4, 8 and 11. -/
example : (Graph.create [2, 3] |> fun r => match r with
    | .ok g => (g.runCatching bumpy).map (fun r => r.2.map (fun a => match a with | .ok _ => true | .error _ => false))
    | _ => none) = some [true, false, true, false, true, true, true, false, true, true, false] := by decide +kernel
example : ∃ g, Reached [2, 3] [] g ∧ Graph.stepT (.findEdge 1 2) g = .throw .outOfRange g := by
  refine ⟨Sample.after [2, 3] [], Sample.after_reached (by decide) (by decide +kernel), ?_⟩
  exact (C58_throws (Sample.after_reached (by decide) (by decide +kernel)) _).1 (by decide +kernel)

/-- A node of static layer 2 whose id also is the first id of the prefix `0x61000001`. -/
def twice : NodeId := Prefix.makeId 0x61000001 0
/-- A history with two misuses: node `twice` is removed while it has an edge to a trajectory under its own layer id, and
then a trajectory whose prefix has an index part reuses its id. -/
def torn : List Op :=
  [.emplaceNode 2 10 at0, .emplaceNode 2 11 at0, .insertEdge 10 11 none, .emplaceNode 2 twice at0, .emplaceDyn 2 0x62000000 1 at0 false,
   .insertEdge 0x6200000000000000 twice none, .removeNode twice, .emplaceDyn 2 0x61000001 1 at0 false, .markStale]
end Through

/-- **C58 (finding).** The stale sweep has no such guarantee: after a history that is careful in the sense of C51, it
removes the edge 10-11 and then throws. -/
theorem C58_sweep_stops_half_way : Careful [2, 3] Through.torn ∧ ∃ g outs e g', Graph.exec [2, 3] Through.torn = .ok (g, outs) ∧
    Graph.stepT .sweep g = .throw e g' ∧ g.hasEdge 10 11 = .ok true ∧ g'.hasEdge 10 11 = .ok false := by
  refine ⟨AnyHistory.check_sound (by decide +kernel), ?_⟩
  have h : (match Graph.exec [2, 3] Through.torn with
    | .ok r => (match Graph.stepT .sweep r.1 with
      | .throw _ g' => decide (r.1.hasEdge 10 11 = .ok true ∧ g'.hasEdge 10 11 = .ok false)
      | _ => false)
    | _ => false) = true := by decide +kernel
  cases h1 : Graph.exec [2, 3] Through.torn with
  | ok r =>
    rw [h1] at h
    simp only at h
    cases h2 : Graph.stepT .sweep r.1 with
    | throw e g' =>
      rw [h2] at h
      simp only [decide_eq_true_eq] at h
      exact ⟨r.1, r.2, e, g', rfl, h2, h.1, h.2⟩
    | ok _ _ => rw [h2] at h; cases h
    | ub => rw [h2] at h; cases h
  | throw _ => rw [h1] at h; cases h
  | ub => rw [h1] at h; cases h

end Verif
