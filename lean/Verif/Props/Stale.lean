import Verif.Refine.Marks
import Verif.Props.Removal
/-! # C16: mark and sweep of stale edges -/

namespace Verif

variable {ids : List LayerId} {pre mid : List Op} {g g1 : Graph}

/-- **C16.** `g` is any reachable graph. `markEdgesAsStale()` is called on it, then any well-behaved calls `mid` (no second
marking) lead to `g1`, then `removeAllStaleEdges()` leads to `g2`. No node, and no layer, changes in the sweep. An edge of
`g1` survives the sweep, unchanged, iff it was absent at the mark or has been looked up or updated since. This is for every
pair whose edge, if present at the mark, was not removed in between (see `C16_reinserted_edge_is_swept` for why). -/
theorem C16_mark_and_sweep (h : Reached ids pre g) (h1 : Reached ids (pre ++ .markStale :: mid) g1)
    (hmid : Op.markStale ∉ mid) :
    ∃ g2, g1.removeAllStaleEdges = .ok g2 ∧ Reached ids (pre ++ .markStale :: mid ++ [.sweep]) g2 ∧ g1.SameFrame g2 ∧
      (∀ n, g2.nodeObs n = g1.nodeObs n) ∧
      (∀ a b, (g2.edgeObs a b).isSome = true → g2.edgeObs a b = g1.edgeObs a b) ∧
      ∀ a b, (g.hasEdge a b = .ok true → ∀ j g', Reached ids (pre ++ .markStale :: mid.take j) g' → g'.hasEdge a b = .ok true) →
        (g2.hasEdge a b = .ok true ↔
          g1.hasEdge a b = .ok true ∧ (g.hasEdge a b = .ok false ∨ ∃ op ∈ mid, op.uses a b = true)) := by
  obtain ⟨hr, hw⟩ := h.rep
  obtain ⟨hr1, hw1⟩ := h1.rep
  obtain ⟨g2, out, e, hreach, ho, _⟩ := h1.step .sweep rfl
  have e2 : g1.removeAllStaleEdges = .ok g2 := by
    simp only [Graph.step] at e
    cases hs : g1.removeAllStaleEdges with
    | ok x => rw [hs] at e; simp only [Res.bind_ok, Res.ok.injEq, Prod.mk.injEq] at e; rw [e.1]
    | throw x => rw [hs] at e; simp at e
    | ub => rw [hs] at e; simp at e
  obtain ⟨hr2, hw2⟩ := hreach.rep
  have hok := h1.ok
  rw [Op.okAll_append] at hok
  simp only [h.ok, Bool.true_and, Op.okAll] at hok
  simp only [Bool.and_eq_true] at hok
  rw [Spec.after_append] at hr1 hw1
  rw [Spec.after_append, Spec.after_append] at hr2 hw2
  generalize hσ : (Spec.init ids).after pre = σ at hr hw hr1 hw1 hr2 hw2 hok
  simp only [Spec.after_cons, Spec.after_nil, Spec.step] at hr1 hw1 hr2 hw2 hok
  obtain ⟨gm, hrm, hwm⟩ : ∃ gm, R gm σ.markStale ∧ SWF σ.markStale := ⟨_, hr.markStale, hw.markStale⟩
  have hedge : ∀ a b, (σ.markStale.after mid).sweep.hasEdge a b =
      ((σ.markStale.after mid).hasEdge a b && !(σ.markStale.after mid).marks.contains (EdgeKey.of a b)) := by
    intro a b
    simp only [Spec.sweep, Spec.hasEdge, OMap.contains, OMap.find?_filter]
    cases (σ.markStale.after mid).edges.find? (EdgeKey.of a b) with
    | none => rfl
    | some x => simp only [Option.filter]; cases (σ.markStale.after mid).marks.find? (EdgeKey.of a b) <;> rfl
  refine ⟨g2, e2, hreach, hr1.sameFrame hr2 rfl rfl (fun _ => rfl), ?_, ?_, ?_⟩
  · intro n; rw [hr2.nodeObs hw2, hr1.nodeObs hw1]; rfl
  · intro a b
    rw [hr2.edgeObs hw2, hr1.edgeObs hw1]
    simp only [Spec.sweep, Spec.edge?, OMap.find?_filter]
    cases (σ.markStale.after mid).edges.find? (EdgeKey.of a b) with
    | none => simp
    | some x => simp only [Option.filter]; split <;> simp
  · intro a b hkeep
    obtain ⟨m1, m2⟩ := Spec.marks_run (a := a) (b := b) hrm hwm hok.2 hmid
    rw [hr2.hasEdge hw2, hr1.hasEdge hw1, hr.hasEdge hw, hedge]
    simp only [Res.ok.injEq, Bool.and_eq_true, Bool.not_eq_true']
    refine and_congr_right fun _ => ?_
    cases he : σ.hasEdge a b with
    | false =>
      have hm0 : σ.markStale.marks.find? (EdgeKey.of a b) = none := by
        have : σ.edges.find? (EdgeKey.of a b) = none := OMap.contains_eq_false.1 he
        simp [Spec.markStale, OMap.find?_map, OMap.find?_filter, this]
      simp [OMap.contains_eq_false.2 (m1 hm0)]
    | true =>
      obtain ⟨_, n1, n2⟩ := hw.hasEdge_nodes he
      obtain ⟨ka, ha⟩ := Spec.key_of_contains n1
      obtain ⟨kb, hb⟩ := Spec.key_of_contains n2
      have hp : σ.placeOf (EdgeKey.of a b) = some (place ka kb) := Spec.placeOf_of ha hb
      obtain ⟨x, hx⟩ := OMap.contains_eq_true.1 he
      have hm0 : σ.markStale.marks.find? (EdgeKey.of a b) = some (place ka kb) := by
        simp [Spec.markStale, OMap.find?_map, OMap.find?_filter, hx, hp]
      have hall : ∀ j, (σ.markStale.after (mid.take j)).hasEdge a b = true := by
        intro j
        have hok' : Op.okAll (Spec.init ids) (pre ++ .markStale :: mid.take j) = true := by
          have h2 := h1.ok
          rw [← List.take_append_drop j mid, ← List.cons_append, ← List.append_assoc, Op.okAll_append, Bool.and_eq_true] at h2
          exact h2.1
        obtain ⟨g', outs, eg, hrj, hwj, _⟩ := exec_ok h.nonempty hok'
        have := hkeep (by rw [hr.hasEdge hw, he]) j g' ⟨h.nonempty, hok', outs, eg⟩
        rw [hrj.hasEdge hwj] at this
        simpa [Spec.after_append, hσ, Spec.step] using this
      obtain ⟨m3, m4⟩ := m2 _ hm0 hp hall
      simp only [Bool.true_eq_false, false_or]
      by_cases hu : ∃ op ∈ mid, op.uses a b = true
      · simp [OMap.contains_eq_false.2 (m3 hu), hu]
      · have : ∀ op ∈ mid, op.uses a b = false := by
          intro op hop
          cases hb : op.uses a b with
          | false => rfl
          | true => exact absurd ⟨op, hop, hb⟩ hu
        simp [OMap.contains, m4 this, hu]

/-- A graph with four edges, inside and between layers, for the examples below. -/
def staleSample : List Op :=
  [.emplaceNode 2 1 Sample.at0, .emplaceNode 2 2 Sample.at0, .emplaceNode 2 3 Sample.at0, .emplaceNode 3 4 Sample.at0,
   .insertEdge 1 2 none, .insertEdge 2 3 none, .insertEdge 4 1 none, .insertEdge 4 2 none]

/-- Edges 1–2 and 4–1 are used, 1–3 is new: they survive; 2–3 and 4–2 are swept. -/
example : (match Graph.exec [2, 3] (staleSample ++ [.markStale, .findEdge 2 1, .addOrUpdateEdge 4 1 (some {}),
      .insertEdge 1 3 none, .sweep]) with
    | .ok (g, _) => [g.hasEdge 1 2, g.hasEdge 4 1, g.hasEdge 1 3, g.hasEdge 2 3, g.hasEdge 4 2]
    | _ => []) = [.ok true, .ok true, .ok true, .ok false, .ok false] ∧
    Op.okAll (Spec.init [2, 3]) (staleSample ++ [.markStale, .findEdge 2 1, .addOrUpdateEdge 4 1 (some {}),
      .insertEdge 1 3 none, .sweep]) = true := by decide +kernel

/-- The exclusion in C16 is needed: an edge that is removed after the mark and inserted again is swept, although it was
inserted after the mark (the mark stays behind under the same key). -/
theorem C16_reinserted_edge_is_swept :
    (match Graph.exec [2, 3] (staleSample ++ [.markStale, .removeEdge 1 2, .insertEdge 1 2 none]) with
      | .ok (g, _) => g.hasEdge 1 2 | _ => .ub) = .ok true ∧
    (match Graph.exec [2, 3] (staleSample ++ [.markStale, .removeEdge 1 2, .insertEdge 1 2 none, .sweep]) with
      | .ok (g, _) => g.hasEdge 1 2 | _ => .ub) = .ok false ∧
    Op.okAll (Spec.init [2, 3]) (staleSample ++ [.markStale, .removeEdge 1 2, .insertEdge 1 2 none, .sweep]) = true := by
  decide +kernel

end Verif
