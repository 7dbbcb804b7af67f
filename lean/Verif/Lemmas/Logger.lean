import Verif.Spec.Logger
import Verif.Refine.Counts
/-! # The numbers of a log line -/

namespace Verif

/-- present -/
def NodeStatus.present : NodeStatus → Bool
  | .new => true
  | .visible => true
  | _ => false

/-- The counting loop adds the numbers of entries of each kind. -/
theorem Logger.count_fold {g : Graph} {f : NodeId → Node} (L : List (NodeId × NodeStatus))
    (hf : ∀ e ∈ L, e.2.present = true → g.getNode e.1 = .ok (f e.1)) (row : LogRow) :
    foldRes (Logger.countStatus g) row L = .ok
      { active := row.active + (L.filter (fun e => e.2.present)).length
        removed := row.removed + (L.filter (fun e => decide (e.2 = .deleted))).length
        merged := row.merged + (L.filter (fun e => decide (e.2 = .merged))).length
        withParents := row.withParents + (L.filter (fun e => e.2.present && (f e.1).hasParent)).length
        withChildren := row.withChildren + (L.filter (fun e => e.2.present && (f e.1).hasChildren)).length
        edges := row.edges } := by
  induction L generalizing row with
  | nil => simp
  | cons e L ih =>
    have hL : ∀ e ∈ L, e.2.present = true → g.getNode e.1 = .ok (f e.1) := fun e he => hf e (List.mem_cons_of_mem _ he)
    have he := hf e List.mem_cons_self
    obtain ⟨n, s⟩ := e
    rw [foldRes_cons]
    have live : s.present = true → Logger.countStatus g row (n, s) = .ok
        { row with active := row.active + 1
                   withParents := row.withParents + (if (f n).hasParent then 1 else 0)
                   withChildren := row.withChildren + (if (f n).hasChildren then 1 else 0) } := by
      intro hs
      have hn := he hs
      simp only at hn
      cases s <;> simp [NodeStatus.present] at hs
      all_goals
        simp only [Logger.countStatus, hn, Res.bind_ok]
        cases (f n).hasParent <;> cases (f n).hasChildren <;> rfl
    cases s with
    | new | visible =>
      rw [live rfl, Res.bind_ok, ih hL]
      cases hp : (f n).hasParent <;> cases hc : (f n).hasChildren <;>
        simp [List.filter_cons, NodeStatus.present, hp, hc] <;> omega
    | deleted | merged | nonexistent =>
      simp only [Logger.countStatus, Res.bind_ok, pure]
      rw [ih hL]
      simp [List.filter_cons, NodeStatus.present]
      try omega

/-- Entries of a table with a property, counted. -/
theorem howMany_entries {v : Type} (m : OMap NodeId v) (P : NodeId × v → Bool) {Q : NodeId → Prop}
    (h : ∀ n, Q n ↔ ∃ s, m.find? n = some s ∧ P (n, s) = true) : HowMany Q (m.toList.filter P).length := by
  refine ⟨(m.toList.filter P).map Prod.fst, ?_, ?_, by simp⟩
  · exact List.Nodup.sublist (List.Sublist.map _ List.filter_sublist) (OMap.keys_nodup m)
  · intro n
    rw [h]
    simp only [List.mem_map, List.mem_filter, Prod.exists, exists_and_right, exists_eq_right, OMap.mem_toList]

end Verif
