import Verif.Lemmas.Mem4
/-! # Appending to a dynamic layer whose next index is behind its slots -/

namespace Verif

namespace Spec
/-- The next index of a dynamic layer is never past its slots. -/
def Lags (σ : Spec) : Prop := ∀ l p, (σ.dynInfo l p).next ≤ (σ.dynInfo l p).top

theorem lags_of_dyn {σ σ' : Spec} (h : σ.Lags) (e : σ'.dyn = σ.dyn) : σ'.Lags := by
  intro l p
  have := h l p
  unfold dynInfo at this ⊢
  rw [e]; exact this

theorem lags_insert {σ σ' : Spec} (h : σ.Lags) {l : LayerId} {p : Prefix} {d : DynInfo} (hd : d.next ≤ d.top)
    (e : σ'.dyn = σ.dyn.insert (l, p) d) : σ'.Lags := by
  intro l' p'
  have := h l' p'
  unfold dynInfo at this ⊢
  rw [e, OMap.find?_insert]
  by_cases c : (l, p) = (l', p')
  · simp [c, hd]
  · simp only [c, if_false]; exact this

theorem lags_empty {σ : Spec} (h : σ.dyn = ∅) : σ.Lags := by
  intro l p
  simp [dynInfo, h]

theorem lags_emplacePrev {σ : Spec} (h : σ.Lags) (l : LayerId) (n : NodeId) (t : Stamp) (a : NodeAttrs) :
    (σ.emplacePrev l n t a).1.Lags := by
  unfold emplacePrev
  split
  · exact h
  · refine lags_insert h (l := l) (p := Prefix.fromId n) (d := _) ?_ rfl
    have h1 := h l (Prefix.fromId n)
    exact Nat.le_trans h1 (Nat.le_max_left _ _)

theorem lags_step {σ : Spec} (h : σ.Lags) (op : Op) : (σ.step op).1.Lags := by
  cases op with
  | clear => exact lags_empty rfl
  | reset ids => exact lags_empty rfl
  | createDyn l p =>
    show (σ.createDyn l p).1.Lags
    unfold createDyn
    split
    · exact h
    · exact lags_insert h (l := l) (p := p) (d := {}) (by decide) rfl
  | emplaceNode l n a => exact lags_of_dyn h (dyn_emplaceNode ..)
  | insertNode l n st a => exact lags_of_dyn h (dyn_emplaceNode ..)
  | emplaceDyn l p t a link =>
    show (σ.emplaceDyn l p t a link).1.Lags
    have hd : (σ.dynInfo l p).next + 1 ≤ (σ.dynInfo l p).top + 1 := by have := h l p; omega
    unfold emplaceDyn
    dsimp only
    split
    · exact h
    · split
      · exact h
      · split <;> exact lags_insert h (l := l) (p := p) (d := ⟨(σ.dynInfo l p).next + 1, (σ.dynInfo l p).top + 1⟩) hd rfl
  | emplacePrev l n t a => exact lags_emplacePrev h _ _ _ _
  | addOrUpdateNode l n a st =>
    show (σ.addOrUpdateNode l n a st).1.Lags
    unfold addOrUpdateNode
    split
    · exact h
    · split
      · exact lags_of_dyn h (dyn_setNodeAttrs ..)
      · cases st with
        | none => exact lags_of_dyn h (dyn_emplaceNode ..)
        | some t => exact lags_emplacePrev h _ _ _ _
  | setNodeAttrs n a => exact lags_of_dyn h (dyn_setNodeAttrs ..)
  | insertEdge s t a => exact lags_of_dyn h (dyn_insertEdge ..)
  | insertParentEdge s t a => exact lags_of_dyn h (dyn_insertParentEdge ..)
  | addOrUpdateEdge s t a => exact lags_of_dyn h (dyn_addOrUpdateEdge ..)
  | setEdgeAttrs s t a => exact lags_of_dyn h (dyn_setEdgeAttrs ..)
  | findEdge s t => exact lags_of_dyn h (dyn_touch ..)
  | removeNode n => exact lags_of_dyn h (dyn_removeNode ..)
  | removeEdge s t => exact lags_of_dyn h (dyn_removeEdge ..)
  | mergeNodes f t => exact lags_of_dyn h (dyn_mergeNodes ..)
  | setMesh m => exact lags_of_dyn h rfl
  | markStale => exact lags_of_dyn h rfl
  | sweep => exact lags_of_dyn h rfl
  | newNodes c => exact h
  | removedNodes c => exact h
  | newEdges c => exact h
  | removedEdges c => exact h

theorem lags_after {σ : Spec} (h : σ.Lags) (ops : List Op) : (σ.after ops).Lags := by
  induction ops generalizing σ with
  | nil => exact h
  | cons op ops ih => exact ih (lags_step h op)
end Spec

theorem DynLayer.modIdx_ok {d : DynLayer} {j : Nat} {x : Node} (h : d.nodes[j]? = some (some x)) (f : Node → Node) :
    d.modIdx j f = .ok { d with nodes := d.nodes.set j (some (f x)) } := by
  simp [modIdx, slot, h]

/-- Appending to a layer whose last slot is not the next index: the call succeeds and the empty slot `i` stays empty. -/
theorem DynLayer.emplace_lagging {d : DynLayer} (hlive : ∀ j, j < 2 ^ 32 → NodeStatus.live (d.status.find? j) = ((d.nodes[j]?).join).isSome)
    (hlt : d.nodes.length < 2 ^ 32) {t : Stamp} (ht : d.times.contains t = false) {i : Nat} (hslot : d.nodes[i]? = some none)
    (a : Option NodeAttrs) (link : Bool) : ∃ d', d.emplaceNode t a link = .ok (d', true) ∧ d'.nodes[i]? = some none := by
  have hi : i < d.nodes.length := by
    rcases Nat.lt_or_ge i d.nodes.length with h | h
    · exact h
    · rw [List.getElem?_eq_none h] at hslot; cases hslot
  generalize hw : d.nodes.length = w at *
  let node : Node := { id := d.pre.makeId d.next, layer := d.id, timestamp := some t, attrs := a }
  let d1 : DynLayer := { d with times := d.times.add t, nodes := d.nodes ++ [some node], status := d.status.insert w .new }
  have hd1 : d1.nodes[i]? = some none := by
    show (d.nodes ++ [some node])[i]? = _
    rw [List.getElem?_append_left (by omega), hslot]
  have hlive1 : ∀ j, j < 2 ^ 32 → NodeStatus.live (d1.status.find? j) = ((d1.nodes[j]?).join).isSome := by
    intro j hj
    show NodeStatus.live ((d.status.insert w .new).find? j) = (((d.nodes ++ [some node])[j]?).join).isSome
    rw [OMap.find?_insert]
    by_cases e : w = j
    · subst e; rw [List.getElem?_append_right (by omega)]; simp [hw, NodeStatus.live]
    · rw [if_neg e, hlive j hj]
      rcases Nat.lt_or_ge j w with h | h
      · rw [List.getElem?_append_left (by omega)]
      · rw [List.getElem?_eq_none (by omega), List.getElem?_eq_none (by simp; omega)]
  have key : d.emplaceNode t a link = (if link && decide (0 < w) then
      (d1.insertEdge (d.pre.makeId (w - 1)) (d.pre.makeId w) none >>= fun r => .ok ({ r.1 with next := r.1.next + 1 }, true))
      else .ok ({ d1 with next := d1.next + 1 }, true)) := by
    simp only [DynLayer.emplaceNode, ht, Bool.false_eq_true, if_false]
    simp only [List.length_append, List.length_cons, List.length_nil, hw]
    have e1 : w + (0 + 1) - 1 = w := by omega
    have e2 : w + (0 + 1) - 2 = w - 1 := by omega
    have e3 : decide (w + (0 + 1) > 1) = decide (0 < w) := by simp
    simp only [e1, e2, e3]
    split
    · show (d1.insertEdge (d.pre.makeId (w - 1)) (d.pre.makeId w) none >>= _) = _
      cases d1.insertEdge (d.pre.makeId (w - 1)) (d.pre.makeId w) none <;> rfl
    · rfl
  rw [key]
  split
  · unfold DynLayer.insertEdge
    split
    · exact ⟨_, rfl, hd1⟩
    split
    · exact ⟨_, rfl, hd1⟩
    split
    · exact ⟨_, rfl, hd1⟩
    · rename_i hn
      simp only [Bool.or_eq_true, Bool.not_eq_true', not_or, Bool.not_eq_false] at hn
      have sl : ∀ j, j < 2 ^ 32 → d1.hasNode (d.pre.makeId j) = true → ∃ x, d1.nodes[j]? = some (some x) := by
        intro j hj h
        have h1 := hlive1 j hj
        have h2 : NodeStatus.live (d1.status.find? j) = true := by
          unfold DynLayer.hasNode at h
          split at h
          · cases h
          · rw [show d1.pre = d.pre from rfl, Prefix.index_makeId _ _ hj] at h
            unfold DynLayer.hasNodeByIndex at h
            cases hs : d1.status.find? j with
            | none => rw [hs] at h; cases h
            | some s => rw [hs] at h; cases s <;> first | rfl | exact absurd h (by decide)
        rw [h2] at h1
        cases hx : d1.nodes[j]? with
        | none => rw [hx] at h1; cases h1
        | some o => cases o with
          | none => rw [hx] at h1; cases h1
          | some x => exact ⟨x, rfl⟩
      obtain ⟨x, hx⟩ := sl (w - 1) (by omega) hn.1
      obtain ⟨y, hy⟩ := sl w hlt hn.2
      have hiw : i ≠ w - 1 := by
        intro e
        rw [← e, hd1] at hx; cases hx
      have hi2 : i ≠ w := by omega
      have hp : d1.pre = d.pre := rfl
      rw [hp, Prefix.index_makeId _ _ (by omega : w - 1 < 2 ^ 32), DynLayer.modIdx_ok hx]
      simp only [Res.bind_ok]
      have hy' : ∀ v, (d1.nodes.set (w - 1) v)[w]? = some (some y) := by
        intro v; rw [List.getElem?_set_ne (by omega), hy]
      rw [hp, Prefix.index_makeId _ _ hlt, DynLayer.modIdx_ok (hy' _)]
      refine ⟨_, rfl, ?_⟩
      show ((d1.nodes.set (w - 1) _).set w _)[i]? = _
      rw [List.getElem?_set_ne (Ne.symm hi2), List.getElem?_set_ne (Ne.symm hiw), hd1]
  · exact ⟨_, rfl, hd1⟩

end Verif
