import Verif.Refine.Run
/-! # Pointwise effect of abstract operations on edges -/

namespace Verif
namespace Spec
variable {σ : Spec}

theorem edge?_comm (σ : Spec) (a b : NodeId) : σ.edge? a b = σ.edge? b a := by
  simp [edge?, EdgeKey.of_comm a b]

theorem edge?_addEdge (σ : Spec) (s t : NodeId) (x : EdgeAttrs) (a b : NodeId) :
    (σ.addEdge s t x).edge? a b = if (a = s ∧ b = t) ∨ (a = t ∧ b = s) then some ⟨s, t, x⟩ else σ.edge? a b := by
  simp only [edge?, addEdge, OMap.find?_insert]
  by_cases h : EdgeKey.of s t = EdgeKey.of a b
  · have h' := EdgeKey.of_inj.1 h
    rw [if_pos h, if_pos]
    rcases h' with ⟨rfl, rfl⟩ | ⟨rfl, rfl⟩ <;> simp
  · rw [if_neg h, if_neg]
    rintro (⟨rfl, rfl⟩ | ⟨rfl, rfl⟩)
    · exact h rfl
    · exact h (EdgeKey.of_comm _ _)

theorem edge?_eraseEdge (σ : Spec) (s t a b : NodeId) :
    (σ.eraseEdge (EdgeKey.of s t)).edge? a b = if (a = s ∧ b = t) ∨ (a = t ∧ b = s) then none else σ.edge? a b := by
  simp only [edge?, eraseEdge, OMap.find?_erase]
  by_cases h : EdgeKey.of s t = EdgeKey.of a b
  · have h' := EdgeKey.of_inj.1 h
    rw [if_pos h, if_pos]
    rcases h' with ⟨rfl, rfl⟩ | ⟨rfl, rfl⟩ <;> simp
  · rw [if_neg h, if_neg]
    rintro (⟨rfl, rfl⟩ | ⟨rfl, rfl⟩)
    · exact h rfl
    · exact h (EdgeKey.of_comm _ _)

theorem edge?_filter (σ : Spec) (P : EdgeKey → EdgeInfo → Bool) (a b : NodeId) :
    ({ σ with edges := σ.edges.filter P }).edge? a b =
      (σ.edge? a b).bind (fun e => if P (EdgeKey.of a b) e then some e else none) := by
  simp only [edge?, OMap.find?_filter]
  cases σ.edges.find? (EdgeKey.of a b) with
  | none => rfl
  | some e => simp [Option.filter]

theorem hasEdge_edge? (σ : Spec) (a b : NodeId) : σ.hasEdge a b = (σ.edge? a b).isSome := rfl

theorem edge?_dropNode (σ : Spec) (n a b : NodeId) :
    (σ.dropNode n).edge? a b = if a = n ∨ b = n then none else σ.edge? a b := by
  have := edge?_filter σ (fun k _ => !k.has n) a b
  have e : (σ.dropNode n).edge? a b = ({ σ with edges := σ.edges.filter (fun k _ => !k.has n) }).edge? a b := rfl
  rw [e, this]
  simp only [EdgeKey.has_of]
  by_cases h1 : a = n
  · subst h1; cases σ.edge? a b <;> simp
  · by_cases h2 : b = n
    · subst h2; cases σ.edge? a b <;> simp
    · simp only [h1, h2, or_self, if_false, beq_false_of_ne h1, beq_false_of_ne h2]; cases σ.edge? a b <;> simp

/-- Condition under which removing `n` links its neighbours in time. -/
def bridges (σ : Spec) (n : NodeId) : Prop :=
  ∃ l p, σ.key? n = some (.dyn l p) ∧ σ.key? (n - 1) = some (.dyn l p) ∧ σ.key? (n + 1) = some (.dyn l p) ∧
    σ.hasEdge n (n - 1) = true ∧ σ.hasEdge n (n + 1) = true ∧ σ.hasEdge (n - 1) (n + 1) = false

theorem bridge_pos {n : NodeId} (h : σ.bridges n) : σ.bridge n = σ.addEdge (n - 1) (n + 1) {} := by
  obtain ⟨l, p, h1, h2⟩ := h
  unfold bridge
  rw [h1]
  simp only [h2, and_self, if_true]

theorem bridge_neg {n : NodeId} (h : ¬ σ.bridges n) : σ.bridge n = σ := by
  unfold bridge
  split
  · rename_i l p hk
    split
    · rename_i h'; exact absurd ⟨l, p, hk, h'⟩ h
    · rfl
  · rfl

/-- The merged edge relation, pointwise. -/
theorem edge?_mergeNodes (hw : SWF σ) {f t : NodeId} (hft : f ≠ t) {k : LayerKey} (hf : σ.key? f = some k)
    (ht : σ.key? t = some k) (a b : NodeId) : (σ.mergeNodes f t).1.edge? a b =
      if a = f ∨ b = f then none
      else if a = b then none
      else if a = t then (σ.edge? t b).or ((σ.edge? f b).map (fun e => ⟨t, b, e.attrs⟩))
      else if b = t then (σ.edge? t a).or ((σ.edge? f a).map (fun e => ⟨t, a, e.attrs⟩))
      else σ.edge? a b := by
  have hself : ∀ x, σ.edge? x x = none := by
    intro x
    have := hw.hasEdge_self x
    rw [hasEdge_edge?] at this
    cases h : σ.edge? x x <;> simp [h] at this ⊢
  have e0 : (σ.mergeNodes f t).1.edge? a b = (σ.mergedEdges f t).find? (EdgeKey.of a b) := by
    simp [mergeNodes, hft, hf, ht, edge?]
  rw [e0, find?_mergedEdges]
  -- the offered edge for the pair
  have off : ∀ x, x ≠ f → x ≠ t → ((σ.edges.toList.filter (fun e => e.1.has f && e.1.other f != t)).find?
        (fun e => EdgeKey.of t (e.1.other f) == EdgeKey.of t x)).map (fun e => (⟨t, e.1.other f, e.2.attrs⟩ : EdgeInfo))
      = (σ.edge? f x).map (fun e => ⟨t, x, e.attrs⟩) := by
    intro x hxf hxt
    have inj : ∀ y, EdgeKey.of t y = EdgeKey.of t x → y = x := by
      intro y h
      rcases EdgeKey.of_inj.1 h with ⟨_, h⟩ | ⟨h, _⟩
      · exact h
      · exact absurd h.symm hxt
    cases hfd : (σ.edges.toList.filter (fun e => e.1.has f && e.1.other f != t)).find?
        (fun e => EdgeKey.of t (e.1.other f) == EdgeKey.of t x) with
    | none =>
      rw [List.find?_eq_none] at hfd
      cases he : σ.edge? f x with
      | none => rfl
      | some e =>
        exfalso
        have hm : (EdgeKey.of f x, e) ∈ σ.edges.toList := OMap.mem_toList.2 he
        have := hfd (EdgeKey.of f x, e) (by
          rw [List.mem_filter]
          refine ⟨hm, ?_⟩
          simp [EdgeKey.has_of_left, EdgeKey.other_of_left, hxt])
        simp [EdgeKey.other_of_left] at this
    | some e =>
      have hm := List.mem_of_find?_eq_some hfd
      have hp := List.find?_some hfd
      rw [List.mem_filter] at hm
      obtain ⟨hm, hm'⟩ := hm
      simp only [Bool.and_eq_true] at hm'
      have hox := inj _ (by simpa using hp)
      have he := OMap.mem_toList.1 (show (e.1, e.2) ∈ σ.edges.toList from hm)
      have hk : e.1 = EdgeKey.of f x := by
        have hk := hw.key_of he
        have := hm'.1
        rw [hk] at this hox ⊢
        rw [EdgeKey.has_of] at this
        simp only [Bool.or_eq_true, beq_iff_eq] at this
        rcases this with h1 | h1
        · rw [h1, EdgeKey.other_of_left] at hox; rw [h1, hox]
        · rw [h1, EdgeKey.of_comm, EdgeKey.other_of_left] at hox; rw [h1, hox, EdgeKey.of_comm]
      have : σ.edge? f x = some e.2 := by unfold edge?; rw [← hk]; exact he
      simp [this, hox]
  have offNone : a ≠ t → b ≠ t → ((σ.edges.toList.filter (fun e => e.1.has f && e.1.other f != t)).find?
        (fun e => EdgeKey.of t (e.1.other f) == EdgeKey.of a b)) = none := by
    intro h1 h2
    rw [List.find?_eq_none]
    intro e _ hp
    rcases EdgeKey.of_inj.1 (beq_iff_eq.1 hp) with ⟨h, _⟩ | ⟨h, _⟩
    · exact h1 h.symm
    · exact h2 h.symm
  have offF : ∀ x, ((σ.edges.toList.filter (fun e => e.1.has f && e.1.other f != t)).find?
        (fun e => EdgeKey.of t (e.1.other f) == EdgeKey.of f x)) = none := by
    intro x
    rw [List.find?_eq_none]
    intro e he hp
    rw [List.mem_filter] at he
    rcases EdgeKey.of_inj.1 (beq_iff_eq.1 hp) with ⟨h, _⟩ | ⟨_, h⟩
    · exact hft h.symm
    · have hk := hw.key_of (OMap.mem_toList.1 (show (e.1, e.2) ∈ σ.edges.toList from he.1))
      have h3 := he.2
      obtain ⟨e', hE⟩ : ∃ e', σ.edges.find? e.1 = some e' := ⟨e.2, OMap.mem_toList.1 he.1⟩
      obtain ⟨w1, w2, _, _⟩ := hw.edge _ _ hE
      simp only [Bool.and_eq_true] at h3
      have h4 := h3.1
      rw [w1] at h4 h
      rw [EdgeKey.has_of] at h4
      simp only [Bool.or_eq_true, beq_iff_eq] at h4
      rcases h4 with h5 | h5
      · rw [h5, EdgeKey.other_of_left] at h; exact w2 (h5.trans h.symm)
      · rw [h5, EdgeKey.of_comm, EdgeKey.other_of_left] at h; exact w2 (h.trans h5.symm)
  by_cases haf : a = f
  · subst haf; simp [EdgeKey.has_of, offF]
  by_cases hbf : b = f
  · subst hbf; rw [EdgeKey.of_comm a b]; simp [EdgeKey.has_of, offF]
  have hnf : (EdgeKey.of a b).has f = false := by simp [EdgeKey.has_of, haf, hbf]
  simp only [haf, hbf, or_self, if_false, hnf, Bool.false_eq_true]
  by_cases hab : a = b
  · subst hab
    simp only [if_true]
    by_cases hat : a = t
    · subst hat
      have h1 : σ.edges.find? (EdgeKey.of a a) = none := hself a
      rw [h1, Option.none_or, Option.map_eq_none_iff, List.find?_eq_none]
      intro e he hp
      rw [List.mem_filter] at he
      have h3 := he.2
      simp only [Bool.and_eq_true, bne_iff_ne, ne_eq] at h3
      rcases EdgeKey.of_inj.1 (beq_iff_eq.1 hp) with ⟨_, h⟩ | ⟨_, h⟩ <;> exact h3.2 h
    · rw [offNone hat hat, show σ.edges.find? (EdgeKey.of a a) = none from hself a]; rfl
  simp only [hab, if_false]
  by_cases hat : a = t
  · subst hat
    simp only [if_true]
    rw [off b hbf (Ne.symm hab)]; rfl
  · simp only [hat, if_false]
    by_cases hbt : b = t
    · subst hbt
      simp only [if_true]
      rw [EdgeKey.of_comm a b, off a haf hat]; rfl
    · simp only [hbt, if_false]
      rw [offNone hat hbt]
      cases h : σ.edges.find? (EdgeKey.of a b) <;> simp [edge?, h]

end Spec
end Verif
