import Verif.Model.Merge
import Verif.Lemmas.Update
import Verif.Lemmas.Sync
/-! # `mergeGraph` as a history of ordinary calls -/

namespace Verif

/-- One loop iteration of `mergeGraph`. -/
inductive MergeEv
  | create (l : LayerId) (p : Prefix)
  | dynNode (l : LayerId) (p : Prefix) (n : NodeId) (t : Stamp) (a : NodeAttrs)
  | rmNode (l : LayerId) (n : NodeId)
  | rmEdge (l : LayerId) (a b : NodeId)
  | node (l : LayerId) (n : NodeId) (a : NodeAttrs)
  | edge (k : LayerKey) (s t s' t' : NodeId) (a : EdgeAttrs)
  | inter (s' t' : NodeId) (a : EdgeAttrs)

/-- What the iterations depend on besides the current graph: configuration, arithmetic, the nodes merged away earlier, and the shift of each
trajectory. -/
structure MergePar where
  F : FloatOps
  cfg : MergeConfig
  away : LayerId → NodeId → Bool
  delta : LayerId → Prefix → V3d

/-- The ordinary calls an iteration amounts to. -/
def plan (P : MergePar) (σ : Spec) : MergeEv → List Op
  | .create l p => [.createDyn l p]
  | .dynNode l p n t a =>
    match σ.nodes.find? n with
    | some i => if P.cfg.updateDynamic then [.setNodeAttrs n (a.setPosition i.attrs.position)] else []
    | none => [.emplaceDyn l p t (a.setPosition (P.F.add a.position (P.delta l p))) false]
  | .rmNode _ n => [.removeNode n]
  | .rmEdge l a b => if σ.key? a = some (.static l) ∧ σ.key? b = some (.static l) then [.removeEdge a b] else []
  | .node l n a =>
    if P.away l n then []
    else match σ.nodes.find? n with
      | some i => if P.cfg.updates l && (P.cfg.updateArchived || i.attrs.isActive) then [.setNodeAttrs n a] else []
      | none => [.emplaceNode l n a]
  | .edge k s t s' t' a =>
    if σ.key? s = some k ∧ σ.key? t = some k ∧ σ.hasEdge s t = true then []
    else if s' = t' then []
    else if σ.key? s' = some k ∧ σ.key? t' = some k then [.insertEdge s' t' (some a)] else []
  | .inter s t a =>
    if s = t then [] else [if P.cfg.enforceParent then .insertParentEdge s t (some a) else .insertEdge s t (some a)]

theorem plan_edge (P : MergePar) (σ : Spec) (k : LayerKey) (s t s' t' : NodeId) (a : EdgeAttrs) :
    plan P σ (.edge k s t s' t' a) =
      if σ.key? s = some k ∧ σ.key? t = some k ∧ σ.hasEdge s t = true then []
      else if s' = t' then []
      else if σ.key? s' = some k ∧ σ.key? t' = some k then [.insertEdge s' t' (some a)] else [] := rfl
theorem plan_rmEdge (P : MergePar) (σ : Spec) (l : LayerId) (a b : NodeId) :
    plan P σ (.rmEdge l a b) = if σ.key? a = some (.static l) ∧ σ.key? b = some (.static l) then [.removeEdge a b] else [] := rfl
theorem plan_node (P : MergePar) (σ : Spec) (l : LayerId) (n : NodeId) (a : NodeAttrs) :
    plan P σ (.node l n a) = if P.away l n then [] else match σ.nodes.find? n with
      | some i => if P.cfg.updates l && (P.cfg.updateArchived || i.attrs.isActive) then [.setNodeAttrs n a] else []
      | none => [.emplaceNode l n a] := rfl
theorem plan_dynNode (P : MergePar) (σ : Spec) (l : LayerId) (p : Prefix) (n : NodeId) (t : Stamp) (a : NodeAttrs) :
    plan P σ (.dynNode l p n t a) = match σ.nodes.find? n with
      | some i => if P.cfg.updateDynamic then [.setNodeAttrs n (a.setPosition i.attrs.position)] else []
      | none => [.emplaceDyn l p t (a.setPosition (P.F.add a.position (P.delta l p))) false] := rfl
theorem plan_inter (P : MergePar) (σ : Spec) (s t : NodeId) (a : EdgeAttrs) :
    plan P σ (.inter s t a) = if s = t then [] else [if P.cfg.enforceParent then .insertParentEdge s t (some a) else .insertEdge s t (some a)] := rfl

/-- The calls of a whole run. -/
def planAll (P : MergePar) : Spec → List MergeEv → List Op
  | _, [] => []
  | σ, e :: es => plan P σ e ++ planAll P (σ.after (plan P σ e)) es

theorem planAll_append (P : MergePar) (σ : Spec) (a b : List MergeEv) :
    planAll P σ (a ++ b) = planAll P σ a ++ planAll P (σ.after (planAll P σ a)) b := by
  induction a generalizing σ with
  | nil => rfl
  | cons x a ih => simp [planAll, ih, Spec.after_append]

/-- State after a run. -/
def Spec.merged (P : MergePar) (σ : Spec) (es : List MergeEv) : Spec := σ.after (planAll P σ es)

@[simp] theorem Spec.merged_nil (P : MergePar) (σ : Spec) : σ.merged P [] = σ := rfl
theorem Spec.merged_cons (P : MergePar) (σ : Spec) (e : MergeEv) (es : List MergeEv) :
    σ.merged P (e :: es) = (σ.after (plan P σ e)).merged P es := by simp [Spec.merged, planAll, Spec.after_append]
theorem Spec.merged_append (P : MergePar) (σ : Spec) (a b : List MergeEv) :
    σ.merged P (a ++ b) = (σ.merged P a).merged P b := by simp [Spec.merged, planAll_append, Spec.after_append]

/-- The calls `ops` lead from `g`, which stores `σ`, to `g'`. -/
structure Does (g : Graph) (σ : Spec) (ops : List Op) (g' : Graph) : Prop where
  r : R g σ
  w : SWF σ
  ok : Op.okAll σ ops = true
  run : ∃ outs, g.run ops = .ok (g', outs)

section
variable {g g' g'' : Graph} {σ : Spec} {a b : List Op}

theorem Does.rep (h : Does g σ a g') : R g' (σ.after a) ∧ SWF (σ.after a) := by
  obtain ⟨x, outs, e, h1, h2, -⟩ := h.r.run h.w a h.ok
  obtain ⟨outs', e'⟩ := h.run
  rw [e] at e'
  cases e'
  exact ⟨h1, h2⟩

theorem Does.trans (h : Does g σ a g') (h' : Does g' (σ.after a) b g'') : Does g σ (a ++ b) g'' := by
  refine ⟨h.r, h.w, by rw [Op.okAll_append, h.ok, h'.ok]; rfl, ?_⟩
  obtain ⟨o1, e1⟩ := h.run
  obtain ⟨o2, e2⟩ := h'.run
  exact ⟨o1 ++ o2, by simp [Graph.run_append, e1, e2]⟩

theorem Does.nil (h : R g σ) (hw : SWF σ) : Does g σ [] g := ⟨h, hw, rfl, [], rfl⟩

theorem Does.one (h : R g σ) (hw : SWF σ) {op : Op} (hok : op.ok σ = true) {out : Out} (e : g.step op = .ok (g', out)) : Does g σ [op] g' :=
  ⟨h, hw, by simp [Op.okAll, hok], [out], by simp [Graph.run, e]⟩

/-- Calls that neither merge nodes nor wipe nor fill a trajectory from behind. -/
def Op.modest : Op → Bool
  | .clear | .reset _ | .emplacePrev .. | .addOrUpdateNode .. | .mergeNodes .. | .newNodes _ | .removedNodes _ | .newEdges _ | .removedEdges _ => false
  | _ => true

theorem Op.modest_log {σ : Spec} {op : Op} (h : op.modest = true) : op.log σ = .plain := by
  cases op <;> simp_all [Op.modest, Op.log]

theorem Does.merged_one {op : Op} (h : Does g σ [op] g') (hm : op.modest = true) (k : LayerKey) (n : NodeId) :
    g'.isMerged k n ↔ (σ.step op).1.key? n ≠ some k ∧ g.isMerged k n := by
  obtain ⟨g1, out, e, -, h1, -, hl⟩ := h.r.step h.w op (by have := h.ok; simpa [Op.okAll] using this)
  obtain ⟨outs, e'⟩ := h.run
  simp [Graph.run, e] at e'
  obtain ⟨rfl, -⟩ := e'
  rw [Op.modest_log hm] at hl
  have := nlog_iff h.r h1 hl.1 k n
  unfold Graph.isMerged
  rw [this]
  constructor
  · intro hh
    split at hh
    · rename_i hd
      refine ⟨?_, hh⟩
      intro hk
      have : σ.key? n = some k := by
        simp only [hk, decide_true] at hd
        exact of_decide_eq_true hd
      exact h.r.merged_not_live hh this
    · split at hh <;> cases hh
  · rintro ⟨h2, h3⟩
    have h4 := h.r.merged_not_live h3
    rw [if_pos (by simp [h2, h4])]
    exact h3

theorem Does.head {op : Op} {ops : List Op} (h : Does g σ (op :: ops) g') : ∃ g1, Does g σ [op] g1 ∧ Does g1 (σ.step op).1 ops g' := by
  have hok := h.ok
  simp only [Op.okAll, Bool.and_eq_true] at hok
  obtain ⟨g1, out, e, -, h1, hw1, -⟩ := h.r.step h.w op hok.1
  obtain ⟨outs, e'⟩ := h.run
  rw [Graph.run, e] at e'
  simp only [Res.bind_ok] at e'
  obtain ⟨r, hr, hr'⟩ := bind_eq_ok e'
  simp only [Res.pure_eq, Res.ok.injEq, Prod.mk.injEq] at hr'
  refine ⟨g1, .one h.r h.w hok.1 e, h1, hw1, hok.2, r.2, ?_⟩
  rw [hr, ← hr'.1]

/-- The nodes merged away stay the same, if none of them comes back. -/
theorem Does.merged {ops : List Op} (h : Does g σ ops g') (hm : ∀ op ∈ ops, op.modest = true) (k : LayerKey) (n : NodeId)
    (hback : g.isMerged k n → ∀ j, (σ.after (ops.take j)).key? n ≠ some k) : g'.isMerged k n ↔ g.isMerged k n := by
  induction ops generalizing g σ with
  | nil =>
    obtain ⟨outs, e⟩ := h.run
    simp only [Graph.run, Res.pure_eq, Res.ok.injEq, Prod.mk.injEq] at e
    rw [e.1]
  | cons op ops ih =>
    obtain ⟨g1, h1, h2⟩ := h.head
    have h3 := h1.merged_one (hm op List.mem_cons_self) k n
    rw [ih h2 (fun o ho => hm o (List.mem_cons_of_mem _ ho)) ?_, h3]
    · constructor
      · exact fun hh => hh.2
      · intro hh
        refine ⟨?_, hh⟩
        have := hback hh 1
        simpa using this
    · intro hh j
      have := hback (h3.1 hh).2 (j + 1)
      simpa using this

theorem Does.reached {ids : List LayerId} {ops : List Op} (hg : Reached ids ops g) (h : Does g ((Spec.init ids).after ops) a g') :
    Reached ids (ops ++ a) g' := by
  refine ⟨hg.nonempty, by rw [Op.okAll_append, hg.ok, h.ok]; rfl, ?_⟩
  obtain ⟨outs, e⟩ := hg.run
  obtain ⟨outs', e'⟩ := h.run
  unfold Graph.exec at e ⊢
  cases hc : Graph.create ids with
  | ok g0 =>
    simp only [hc, Res.bind_ok] at e ⊢
    exact ⟨outs ++ outs', by simp [Graph.run_append, e, e']⟩
  | throw x => simp [hc] at e
  | ub => simp [hc] at e

end

end Verif
