import Verif.Props.Parents
import Verif.Props.Misuse
import Verif.Props.Removal
import Verif.Lemmas.Backfill
/-! # C11, C12: dynamic layers -/

namespace Verif

variable {ids : List LayerId} {ops : List Op} {g : Graph}

/-- Number of nodes successfully appended to the dynamic layer `(l, p)` after one more call with answer `out`, if it was
`acc` before. -/
def appendedStep (l : LayerId) (p : Prefix) (acc : Nat) (op : Op) (out : Out) : Nat :=
  match op with
  | .clear | .reset _ => 0
  | .emplaceDyn l' p' _ _ _ => if l = l' ∧ p = p' ∧ out = .bool true then acc + 1 else acc
  | _ => acc

/-- Number of nodes successfully appended to the dynamic layer `(l, p)` since the last `clear`/`reset`, read off the
history and its answers. -/
def appended (l : LayerId) (p : Prefix) : Nat → List Op → List Out → Nat
  | acc, op :: ops, out :: outs => appended l p (appendedStep l p acc op out) ops outs
  | acc, _, _ => acc

theorem Spec.next_step (σ : Spec) (op : Op) (out : Out) (ho : ∀ o, (σ.step op).2 = some o → out = o) (l : LayerId) (p : Prefix) :
    ((σ.step op).1.dynInfo l p).next = appendedStep l p (σ.dynInfo l p).next op out := by
  have prev : ∀ l' n t a, ((σ.emplacePrev l' n t a).1.dynInfo l p).next = (σ.dynInfo l p).next := by
    intro l' n t a
    unfold Spec.emplacePrev
    split
    · rfl
    · simp only [Spec.dynInfo, Spec.addNode, OMap.find?_insert]
      by_cases e : (l', Prefix.fromId n) = (l, p)
      · cases e; simp
      · simp [e]
  have place : ∀ l' n st a, ((σ.emplaceNode l' n st a).1.dynInfo l p).next = (σ.dynInfo l p).next := by
    intro l' n st a
    unfold Spec.emplaceNode
    split
    · rfl
    · split <;> rfl
  have sna : ∀ n a, ((σ.setNodeAttrs n a).1.dynInfo l p).next = (σ.dynInfo l p).next := by
    intro n a; unfold Spec.setNodeAttrs; split <;> rfl
  have sea : ∀ s t a, ((σ.setEdgeAttrs s t a).1.dynInfo l p).next = (σ.dynInfo l p).next := by
    intro s t a; unfold Spec.setEdgeAttrs Spec.touch; split
    · rfl
    · split <;> rfl
  have ie : ∀ s t a, ((σ.insertEdge s t a).1.dynInfo l p).next = (σ.dynInfo l p).next := by
    intro s t a; unfold Spec.insertEdge; repeat (split; rfl)
    rfl
  cases op <;> simp only [Spec.step, Spec.ans, appendedStep]
  case clear => rfl
  case reset => rfl
  case createDyn l' p' =>
    unfold Spec.createDyn
    split
    · rfl
    · rename_i hc
      simp only [Spec.dynInfo, OMap.find?_insert]
      by_cases e : (l', p') = (l, p)
      · cases e
        have := OMap.contains_eq_false.1 (by simpa using hc : σ.dyn.contains (l, p) = false)
        simp [this]
      · simp [e]
  case emplaceNode => exact place ..
  case insertNode => exact place ..
  case emplaceDyn l' p' t a link =>
    have ho' := ho _ rfl
    unfold Spec.emplaceDyn at ho' ⊢
    simp only at ho' ⊢
    split
    · rename_i h1; simp only [h1, if_true] at ho'; simp [ho']
    · rename_i h1
      simp only [h1, if_false, Bool.false_eq_true] at ho'
      split
      · rename_i h2; simp only [h2, if_true] at ho'; simp [ho']
      · rename_i h2
        simp only [h2, if_false, Bool.false_eq_true] at ho'
        have ho2 : out = .bool true := by
          rw [ho']; split <;> rfl
        simp only [ho2, and_true]
        have key : ∀ τ : Spec, τ.dyn = σ.dyn.insert (l', p') ⟨(σ.dynInfo l' p').next + 1, (σ.dynInfo l' p').top + 1⟩ →
            (τ.dynInfo l p).next = if l = l' ∧ p = p' then (σ.dynInfo l p).next + 1 else (σ.dynInfo l p).next := by
          intro τ hτ
          simp only [Spec.dynInfo, hτ, OMap.find?_insert, Prod.mk.injEq]
          by_cases e : l = l' ∧ p = p'
          · obtain ⟨rfl, rfl⟩ := e; simp
          · have e' : ¬ (l' = l ∧ p' = p) := fun h => e ⟨h.1.symm, h.2.symm⟩
            simp [e, e']
        split <;> exact key _ rfl
  case emplacePrev => exact prev ..
  case addOrUpdateNode l' n a st =>
    unfold Spec.addOrUpdateNode
    split
    · rfl
    split
    · exact sna ..
    split
    · exact prev ..
    · exact place ..
  case setNodeAttrs => exact sna ..
  case insertEdge => exact ie ..
  case insertParentEdge s t i =>
    unfold Spec.insertParentEdge
    split
    · split <;> rfl
    · rfl
  case addOrUpdateEdge s t i =>
    unfold Spec.addOrUpdateEdge
    split
    · exact sea ..
    · exact ie ..
  case setEdgeAttrs => exact sea ..
  case findEdge s t => unfold Spec.findEdge Spec.touch; split <;> rfl
  case removeNode n =>
    unfold Spec.removeNode
    split
    · by_cases hb : σ.bridges n
      · rw [Spec.bridge_pos hb]; rfl
      · rw [Spec.bridge_neg hb]; rfl
    · rfl
  case removeEdge s t => unfold Spec.removeEdge; split <;> rfl
  case mergeNodes f t =>
    unfold Spec.mergeNodes
    split
    · rfl
    · split
      · split <;> rfl
      · rfl
  case setMesh => rfl
  case markStale => rfl
  case sweep => rfl

theorem R.appended {σ : Spec} (hr : R g σ) (hw : SWF σ) {ops : List Op} (hok : Op.okAll σ ops = true) {g' : Graph} {outs : List Out}
    (he : g.run ops = .ok (g', outs)) (l : LayerId) (p : Prefix) :
    ((σ.after ops).dynInfo l p).next = Verif.appended l p (σ.dynInfo l p).next ops outs := by
  induction ops generalizing g σ outs with
  | nil => cases he; rfl
  | cons op ops ih =>
    simp only [Op.okAll, Bool.and_eq_true] at hok
    obtain ⟨g1, o, e1, ho, h1, hw1, _⟩ := hr.step hw op hok.1
    simp only [Graph.run, e1, Res.bind_ok] at he
    cases hx : g1.run ops with
    | ok r =>
      rw [hx] at he
      simp only [Res.bind_ok, Res.ok.injEq, Prod.mk.injEq] at he
      obtain ⟨rfl, rfl⟩ := he
      have := ih h1 hw1 hok.2 hx
      simp only [Spec.after_cons, this, Verif.appended, Spec.next_step σ op o ho]
    | throw e => rw [hx] at he; cases he
    | ub => rw [hx] at he; cases he

open Classical in
/-- **C11.** Let `i` be the number of nodes appended so far to the dynamic layer `(l, p)`. Appending with stamp `t` succeeds iff
no live node of the layer has that stamp and the id `p(i)` is not taken. On success the new node is `p(i)`, with that layer, stamp and
attributes; if linking was asked and `p(i-1)` is still in the layer they are linked; nothing else changes. On refusal nothing
changes. In any case no two live nodes of the layer share a stamp. -/
theorem C11_append (hids : ids ≠ []) {outs : List Out} (hrun : Graph.exec ids ops = .ok (g, outs)) (l : LayerId) (p : Prefix) (t : Stamp)
    (a : NodeAttrs) (link : Bool) (hok : Op.okAll (Spec.init ids) (ops ++ [.emplaceDyn l p t a link]) = true) :
    let i := appended l p 0 ops outs
    ∃ g' r, g.emplaceDyn l p t (some a) link = .ok (g', r) ∧ Reached ids (ops ++ [.emplaceDyn l p t a link]) g' ∧
      (r = true ↔ g.hasNode (p.makeId i) = false ∧ ¬ ∃ m x, g.nodeObs m = some x ∧ x.key = .dyn l p ∧ x.stamp = some t) ∧
      (r = false → g' = g) ∧
      (r = true → g'.layerIds = g.layerIds ∧ g'.mesh = g.mesh ∧
        (∀ m, g'.nodeObs m = if m = p.makeId i then some ⟨.dyn l p, some t, a⟩ else g.nodeObs m) ∧
        (∀ x y, g'.edgeObs x y =
          if link = true ∧ 0 < i ∧ g.getLayerForNode (p.makeId (i - 1)) = some (.dyn l p) ∧
            ((x = p.makeId (i - 1) ∧ y = p.makeId i) ∨ (x = p.makeId i ∧ y = p.makeId (i - 1)))
          then some ⟨p.makeId (i - 1), p.makeId i, {}⟩ else g.edgeObs x y)) ∧
      (∀ m m' x x', g'.nodeObs m = some x → g'.nodeObs m' = some x' → x.key = .dyn l p → x'.key = .dyn l p →
        x.stamp = x'.stamp → m = m') := by
  intro i
  rw [Op.okAll_append, Bool.and_eq_true] at hok
  have h : Reached ids ops g := ⟨hids, hok.1, outs, hrun⟩
  obtain ⟨hr, hw⟩ := h.rep
  have hi : (((Spec.init ids).after ops).dynInfo l p).next = i := by
    obtain ⟨g0, e0, hr0⟩ := R.create hids
    have hrun' := hrun
    simp only [Graph.exec, e0, Res.bind_ok] at hrun'
    exact hr0.appended (SWF.empty ids) hok.1 hrun' l p
  generalize hσ : (Spec.init ids).after ops = σ at hr hw hok hi
  have hok' : (Op.emplaceDyn l p t a link).ok σ = true := by simpa [Op.okAll] using hok.2
  obtain ⟨g', heq, hreach, hr', hw', _⟩ := h.mut (.emplaceDyn l p t a link) hσ hok'
    (r := g.emplaceDyn l p t (some a) link) (s := σ.emplaceDyn l p t a link) rfl rfl
  have hstamp : σ.hasStamp (.dyn l p) t = true ↔ ∃ m x, g.nodeObs m = some x ∧ x.key = .dyn l p ∧ x.stamp = some t := by
    simp only [Spec.hasStamp, List.any_eq_true, Bool.and_eq_true, beq_iff_eq, hr.nodeObs hw]
    constructor
    · rintro ⟨⟨m, x⟩, h1, h2⟩; exact ⟨m, x, OMap.mem_toList.1 h1, h2⟩
    · rintro ⟨m, x, h1, h2⟩; exact ⟨(m, x), OMap.mem_toList.2 h1, h2⟩
  refine ⟨g', _, heq, hreach, ?_, ?_, ?_, ?_⟩
  · rw [← hstamp, hr.hasNode]
    unfold Spec.emplaceDyn
    simp only [hi]
    split
    · rename_i h1; simp [h1]
    · rename_i h1
      split
      · rename_i h2; simp [h2]
      · rename_i h2
        simp only [h1, h2, not_false_eq_true, and_self, iff_true, Bool.not_eq_true]
        split <;> rfl
  · intro hf; rw [hf] at heq; exact Graph.emplaceDyn_false heq
  · intro ht
    have hc : σ.nodes.contains (p.makeId i) = false ∧ σ.hasStamp (.dyn l p) t = false := by
      unfold Spec.emplaceDyn at ht
      simp only [hi] at ht
      split at ht
      · cases ht
      split at ht
      · cases ht
      rename_i h1 h2
      exact ⟨by simpa using h1, by simpa using h2⟩
    have hlink : (link && decide (0 < i) && decide (σ.key? (p.makeId (i - 1)) = some (.dyn l p))) = true ↔
        (link = true ∧ 0 < i ∧ g.getLayerForNode (p.makeId (i - 1)) = some (.dyn l p)) := by
      rw [hr.getLayerForNode]; simp [and_assoc]
    have hS : (σ.emplaceDyn l p t a link).1 = (
        if (link && decide (0 < i) && decide (σ.key? (p.makeId (i - 1)) = some (.dyn l p))) = true then
          ({ σ with dyn := σ.dyn.insert (l, p) ⟨i + 1, (σ.dynInfo l p).top + 1⟩ }.addNode (p.makeId i) ⟨.dyn l p, some t, a⟩).addEdge
            (p.makeId (i - 1)) (p.makeId i) {}
        else { σ with dyn := σ.dyn.insert (l, p) ⟨i + 1, (σ.dynInfo l p).top + 1⟩ }.addNode (p.makeId i) ⟨.dyn l p, some t, a⟩) := by
      unfold Spec.emplaceDyn
      simp only [hi, hc.1, hc.2, Bool.false_eq_true, if_false]
      split <;> rfl
    have hn : (σ.emplaceDyn l p t a link).1.nodes = σ.nodes.insert (p.makeId i) ⟨.dyn l p, some t, a⟩ := by
      rw [hS]; split <;> rfl
    refine ⟨?_, ?_, ?_, ?_⟩
    · rw [show g'.layerIds = _ from hr'.layerIds, show g.layerIds = _ from hr.layerIds, hS]; split <;> rfl
    · rw [show g'.mesh = _ from hr'.mesh, show g.mesh = _ from hr.mesh, hS]; split <;> rfl
    · intro m
      rw [hr'.nodeObs hw', hr.nodeObs hw, hn, OMap.find?_insert]
      simp only [eq_comm]
    · intro x y
      rw [hr'.edgeObs hw', hr.edgeObs hw, hS]
      split
      · rename_i h1
        rw [Spec.edge?_addEdge]
        have h2 := hlink.1 h1
        simp only [h2.1, h2.2.1, h2.2.2, true_and]
        rfl
      · rename_i h1
        have h2 := fun h => h1 (hlink.2 h)
        rw [if_neg]
        · rfl
        · rintro ⟨a1, a2, a3, _⟩; exact h2 ⟨a1, a2, a3⟩
  · intro m m' x x' h1 h2 h3 h4 h5
    rw [hr'.nodeObs hw'] at h1 h2
    exact hw'.stamps m m' x x' l p h1 h2 h3 h4 h5

/-- C11 applies after a removal in the middle of a trajectory, and the ids are consecutive. -/
example : Op.okAll (Spec.init [2]) ([.emplaceDyn 2 Sample.pa 1 Sample.at0 true, .emplaceDyn 2 Sample.pa 2 Sample.at0 true,
      .removeNode (Sample.a 0), .emplaceDyn 2 Sample.pa 2 Sample.at0 true] ++ [.emplaceDyn 2 Sample.pa 3 Sample.at0 true]) = true ∧
    (match Graph.exec [2] [.emplaceDyn 2 Sample.pa 1 Sample.at0 true, .emplaceDyn 2 Sample.pa 2 Sample.at0 true,
      .removeNode (Sample.a 0), .emplaceDyn 2 Sample.pa 2 Sample.at0 true] with
      | .ok (_, outs) => (outs, appended 2 Sample.pa 0 [.emplaceDyn 2 Sample.pa 1 Sample.at0 true, .emplaceDyn 2 Sample.pa 2 Sample.at0 true,
      .removeNode (Sample.a 0), .emplaceDyn 2 Sample.pa 2 Sample.at0 true] outs)
      | _ => ([], 0)) = ([.bool true, .bool true, .bool true, .bool false], 2) := by decide +kernel

/-- **C12, the back-filled node.** `emplacePrevDynamicNode` succeeds iff the id is unused; then the node is in the dynamic layer named by
its id's prefix, with that stamp and attributes, and nothing else changes; if refused nothing changes. The state is again a reached one,
so all structural properties hold and the node can be found and removed. -/
theorem C12_backfill (h : Reached ids ops g) (l : LayerId) (n : NodeId) (t : Stamp) (a : NodeAttrs)
    (hok : Op.okAll (Spec.init ids) (ops ++ [.emplacePrev l n t a]) = true) :
    ∃ g', g.emplacePrev l n t (some a) = .ok (g', !g.hasNode n) ∧ Reached ids (ops ++ [.emplacePrev l n t a]) g' ∧
      (g.hasNode n = true → g' = g) ∧
      (g.hasNode n = false → g'.layerIds = g.layerIds ∧ g'.mesh = g.mesh ∧ g'.hasDynLayer l (Prefix.fromId n) = true ∧
        (∀ m, g'.nodeObs m = if m = n then some ⟨.dyn l (Prefix.fromId n), some t, a⟩ else g.nodeObs m) ∧
        ∀ x y, g'.edgeObs x y = g.edgeObs x y) := by
  rw [Op.okAll_append, Bool.and_eq_true] at hok
  obtain ⟨hr, hw⟩ := h.rep
  generalize hσ : (Spec.init ids).after ops = σ at hr hw hok
  have hok' : (Op.emplacePrev l n t a).ok σ = true := by simpa [Op.okAll] using hok.2
  obtain ⟨g', heq, hreach, hr', hw', _⟩ := h.mut (.emplacePrev l n t a) hσ hok'
    (r := g.emplacePrev l n t (some a)) (s := σ.emplacePrev l n t a) rfl rfl
  have h2 : (σ.emplacePrev l n t a).2 = !g.hasNode n := by
    rw [hr.hasNode]; unfold Spec.emplacePrev; split <;> simp_all
  rw [h2] at heq
  refine ⟨g', heq, hreach, ?_, ?_⟩
  · intro hn; rw [hn] at heq; exact Graph.emplacePrev_false heq
  · intro hn
    rw [hr.hasNode] at hn
    have hS : (σ.emplacePrev l n t a).1 = { σ with dyn := σ.dyn.insert (l, Prefix.fromId n) ⟨(σ.dynInfo l (Prefix.fromId n)).next,
        max (σ.dynInfo l (Prefix.fromId n)).top ((Prefix.fromId n).index n + 1)⟩ }.addNode n ⟨.dyn l (Prefix.fromId n), some t, a⟩ := by
      simp [Spec.emplacePrev, hn]
    refine ⟨?_, ?_, ?_, ?_, ?_⟩
    · rw [show g'.layerIds = _ from hr'.layerIds, show g.layerIds = _ from hr.layerIds, hS]; rfl
    · rw [show g'.mesh = _ from hr'.mesh, show g.mesh = _ from hr.mesh, hS]; rfl
    · rw [hr'.dyn_layer, hS]; simp [Spec.addNode, OMap.contains_insert]
    · intro m
      rw [hr'.nodeObs hw', hr.nodeObs hw, hS]
      simp only [Spec.addNode, OMap.find?_insert, eq_comm]
    · intro x y
      rw [hr'.edgeObs hw', hr.edgeObs hw, hS]; rfl

example : Op.okAll (Spec.init [2]) ([.emplacePrev 2 (Sample.a 5) 9 Sample.at0, .emplacePrev 2 (Sample.a 2) 4 Sample.at0, .removeNode (Sample.a 5)] ++
    [.emplacePrev 2 (Sample.a 5) 9 Sample.at0]) = true := by decide +kernel

open Classical in
/-- **C12, appending.** `i` is the number of nodes appended so far to the dynamic layer `d = (l, p)` (the next index), and the layer has
`d.nodes.length ≥ i` slots (one past the highest index ever used). Appending a node under an unused id with an unused stamp always reports
success and the graph then knows the new id `p(i)`. If no index was skipped or filled ahead (`i = d.nodes.length`) the new node can be found,
has that stamp and attributes, and can be removed. Otherwise it can never be found: `findNode` gives a null pointer, and `removeNode`
dereferences a null pointer. -/
theorem C12_append_after_backfill (hids : ids ≠ []) {outs : List Out} (hrun : Graph.exec ids ops = .ok (g, outs))
    (hok : Op.okAll (Spec.init ids) ops = true) {l : LayerId} {p : Prefix} (hp : p.plain = true) (hl : l ≠ UNKNOWN_LAYER) {d : DynLayer}
    (hd : g.dynLayer? l p = some d) (hlt : d.nodes.length < 2 ^ 32) (t : Stamp) (a : NodeAttrs) (link : Bool)
    (hid : g.hasNode (p.makeId (appended l p 0 ops outs)) = false)
    (hst : ¬ ∃ m x, g.nodeObs m = some x ∧ x.key = .dyn l p ∧ x.stamp = some t) :
    let i := appended l p 0 ops outs
    i ≤ d.nodes.length ∧ ∃ g', g.emplaceDyn l p t (some a) link = .ok (g', true) ∧ g'.hasNode (p.makeId i) = true ∧
      (i = d.nodes.length → g'.nodeObs (p.makeId i) = some ⟨.dyn l p, some t, a⟩ ∧
        ∃ g'', g'.removeNode (p.makeId i) = .ok (g'', true) ∧ g''.hasNode (p.makeId i) = false) ∧
      (i ≠ d.nodes.length → g'.findNode (p.makeId i) = .ok none ∧ g'.removeNode (p.makeId i) = .ub) := by
  intro i
  have h : Reached ids ops g := ⟨hids, hok, outs, hrun⟩
  obtain ⟨hr, hw⟩ := h.rep
  have hi : (((Spec.init ids).after ops).dynInfo l p).next = i := by
    obtain ⟨g0, e0, hr0⟩ := R.create hids
    have hrun' := hrun
    simp only [Graph.exec, e0, Res.bind_ok] at hrun'
    exact hr0.appended (SWF.empty ids) hok hrun' l p
  have hlag : ((Spec.init ids).after ops).Lags := Spec.lags_after (Spec.lags_empty rfl) ops
  generalize hσ : (Spec.init ids).after ops = σ at hr hw hi hlag
  have hlag := hlag l p
  have hb : g.layerAt? (.dyn l p) = some (.dyn d) := by simp [Graph.layerAt?, hd]
  obtain ⟨i1, i2, i3, i4, i6, i5⟩ := hr.info (.dyn l p) (BaseLayer.info (.dyn d)) (by simp [Graph.view, hb])
  simp only [BaseLayer.info] at i1 i2 i3 i4 i5 i6
  rw [hi, ← i4] at hlag
  refine ⟨hlag, ?_⟩
  have hS : σ.hasStamp (.dyn l p) t = false := by
    cases hh : σ.hasStamp (.dyn l p) t with
    | false => rfl
    | true =>
      exfalso
      simp only [Spec.hasStamp, List.any_eq_true, Bool.and_eq_true, beq_iff_eq] at hh
      obtain ⟨⟨m, x⟩, h1, h2⟩ := hh
      exact hst ⟨m, x, by rw [hr.nodeObs hw]; exact OMap.mem_toList.1 h1, h2⟩
  have hid : g.hasNode (p.makeId i) = false := hid
  have hnc : σ.nodes.contains (p.makeId i) = false := by rw [← hr.hasNode]; exact hid
  by_cases e : i = d.nodes.length
  · have hok' : (Op.emplaceDyn l p t a link).ok σ = true := by
      simp only [Op.ok, hp, hi, hl, ← i4, Bool.true_and, Bool.and_eq_true, decide_eq_true_eq]
      exact ⟨⟨hl, by omega⟩, e⟩
    have hall : Op.okAll (Spec.init ids) (ops ++ [.emplaceDyn l p t a link]) = true := by
      rw [Op.okAll_append, hok, hσ]; simpa [Op.okAll] using hok'
    obtain ⟨g', r, e1, e2, e3, _, e5, _⟩ := C11_append hids hrun l p t a link hall
    have hr1 : r = true := e3.2 ⟨hid, hst⟩
    subst hr1
    obtain ⟨_, _, hN, hE⟩ := e5 rfl
    have hnode : g'.nodeObs (p.makeId i) = some ⟨.dyn l p, some t, a⟩ := by rw [hN]; exact if_pos rfl
    obtain ⟨hr', hw'⟩ := e2.rep
    generalize (Spec.init ids).after (ops ++ [.emplaceDyn l p t a link]) = σ' at hr' hw'
    have hhas : g'.hasNode (p.makeId i) = true := by
      rw [hr'.hasNode]; rw [hr'.nodeObs hw'] at hnode
      simp [OMap.contains, hnode]
    refine ⟨g', e1, hhas, fun _ => ⟨hnode, ?_⟩, fun h => absurd e h⟩
    have hcf : g'.CrossFree (p.makeId i) := by
      intro m kn km h1 h2 h3 _
      rw [hr'.getLayerForNode] at h2 h3
      have hkn : kn = .dyn l p := by
        rw [hr'.nodeObs hw'] at hnode
        simp only [Spec.key?, hnode, Option.map_some, Option.some.injEq] at h2
        exact h2.symm
      rw [hr'.hasEdge hw', Res.ok.injEq] at h1
      have h4 : g'.edgeObs (p.makeId i) m ≠ none := by
        rw [hr'.edgeObs hw']
        intro h5
        simp only [Spec.hasEdge, OMap.contains] at h1
        simp only [Spec.edge?] at h5
        rw [h5] at h1; cases h1
      rw [hE] at h4
      split at h4
      · rename_i hc
        obtain ⟨_, hpos, hlay, hcase⟩ := hc
        have hm : m = p.makeId (i - 1) := by
          rcases hcase with ⟨q1, _⟩ | ⟨_, q2⟩
          · exact absurd q1 (Ne.symm (Prefix.makeId_ne (by omega) (by omega) (by omega)))
          · exact q2
        have hne : m ≠ p.makeId i := by rw [hm]; exact Prefix.makeId_ne (by omega) (by omega) (by omega)
        have h6 := hN m
        rw [if_neg hne, hr'.nodeObs hw', hr.nodeObs hw] at h6
        rw [hr.getLayerForNode, ← hm] at hlay
        simp only [Spec.key?, h6] at h3
        simp only [Spec.key?] at hlay
        rw [hlay] at h3
        rw [hkn]; exact (Option.some.inj h3).symm
      · exfalso
        apply h4
        rw [hr.edgeObs hw]
        have := (hw.no_hasEdge (n := p.makeId i) (by simpa [Spec.contains_of_key?] using hnc) m).1
        exact OMap.contains_eq_false.1 this
    obtain ⟨g'', f1, f2, f3, f4, f5⟩ := C06_removeNode e2 _ hcf
    rw [hhas] at f1
    refine ⟨g'', f1, ?_⟩
    obtain ⟨hr2, hw2⟩ := f2.rep
    have := f4 (p.makeId i)
    rw [if_pos rfl, hr2.nodeObs hw2] at this
    rw [hr2.hasNode]; exact OMap.contains_eq_false.2 this
  · have hi' : i < d.nodes.length := by omega
    have hslot : d.nodes[i]? = some none := by
      have := hr.node_none (n := p.makeId i) (by simpa [Spec.contains_of_key?] using hnc) (.dyn l p)
      simp only [Graph.view, hb, Option.bind_some, BaseLayer.nd, i2, Prefix.isMatch_makeId p (show i < 2 ^ 32 by omega),
        Prefix.index_makeId p p (show i < 2 ^ 32 by omega), if_true] at this
      rw [List.getElem?_eq_getElem hi'] at this ⊢
      simpa using this
    have hold : ∀ j, j < 2 ^ 32 → NodeStatus.live (d.status.find? j) = ((d.nodes[j]?).join).isSome := by
      intro j hj
      have := (hr.blive hb) (p.makeId j)
      simpa [BaseLayer.nst, BaseLayer.nd, i2, Prefix.isMatch_makeId p hj, Prefix.index_makeId p p hj] using this
    obtain ⟨d', f1, f2⟩ := DynLayer.emplace_lagging hold hlt (t := t) (by rw [i5, hS]) hslot (some a) link
    have hcat : (NodeSymbol.categoryId (p.makeId i)).toNat = i := by
      rw [Prefix.categoryId_of_plain hp (Prefix.isMatch_makeId p (by omega)), Prefix.index_makeId p p (by omega)]
    have hptr : ({ g.setDyn l p d' with lookup := g.lookup.insert (p.makeId i) (.dyn l p) } : Graph).getNodePtr (p.makeId i) (.dyn l p) = .ok none := by
      have h7 : (g.setDyn l p d').dynLayer? l p = some d' := by rw [Graph.dynLayer?_setDyn]; simp
      unfold Graph.getNodePtr
      dsimp only
      unfold Graph.dynLayer? at h7
      cases h8 : (g.setDyn l p d').dyns.find? l with
      | none => rw [h8] at h7; cases h7
      | some m =>
        rw [h8] at h7
        simp only [Option.bind_some] at h7
        simp only [Res.at?, Res.bind_ok, h7, hcat, f2]
    have hlook : (g.lookup.insert (p.makeId i) (LayerKey.dyn l p)).find? (p.makeId i) = some (.dyn l p) := by
      rw [OMap.find?_insert, if_pos rfl]
    refine ⟨{ g.setDyn l p d' with lookup := g.lookup.insert (p.makeId i) (.dyn l p) }, ?_, ?_, fun h => absurd h e, fun _ => ⟨?_, ?_⟩⟩
    · have hh : g.hasDynLayer l p = true := by simp [Graph.hasDynLayer, hd]
      simp only [Graph.emplaceDyn, hr.dyn_next, hi, hid, Bool.false_eq_true, if_false, hh, if_true, hd, Res.deref_some, Res.bind_ok, f1,
        Bool.not_true]
      rfl
    · simp [Graph.hasNode, OMap.contains, hlook]
    · unfold Graph.findNode
      dsimp only
      rw [hlook]; exact hptr
    · unfold Graph.removeNode
      dsimp only
      rw [hlook]
      simp only [hptr, Res.bind_ok]; rfl

/-- Both cases occur: after back-filling `a5` and appending nothing the layer has six slots; after filling `a0` first and appending
nothing it has one; without back-filling the two numbers agree. -/
example : (match Graph.exec [2] [.emplacePrev 2 (Sample.a 5) 7 Sample.at0] with
      | .ok (g, outs) => ((g.dynLayer? 2 Sample.pa).map (fun d => d.nodes.length), appended 2 Sample.pa 0 [.emplacePrev 2 (Sample.a 5) 7 Sample.at0] outs)
      | _ => (none, 0)) = (some 6, 0) ∧
    (match Graph.exec [2] [.emplaceDyn 2 Sample.pa 1 Sample.at0 true, .removeNode (Sample.a 0), .emplacePrev 2 (Sample.a 0) 5 Sample.at0] with
      | .ok (g, outs) => ((g.dynLayer? 2 Sample.pa).map (fun d => d.nodes.length), appended 2 Sample.pa 0 [.emplaceDyn 2 Sample.pa 1 Sample.at0 true,
          .removeNode (Sample.a 0), .emplacePrev 2 (Sample.a 0) 5 Sample.at0] outs)
      | _ => (none, 0)) = (some 1, 1) ∧
    Op.okAll (Spec.init [2]) [.emplaceDyn 2 Sample.pa 1 Sample.at0 true, .removeNode (Sample.a 0), .emplacePrev 2 (Sample.a 0) 5 Sample.at0] = true := by
  decide +kernel

end Verif
