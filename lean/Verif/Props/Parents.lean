import Verif.Refine.SpecStep
import Verif.Props.Removal
/-! # C08–C10: parent edges; refused calls -/

namespace Verif

variable {ids : List LayerId} {ops : List Op} {g : Graph}

theorem Spec.edge?_dropParents {σ : Spec} (c a b : NodeId) : (σ.dropParents c).edge? a b =
    if σ.isParentEdge c (EdgeKey.of a b) then none else σ.edge? a b := by
  unfold Spec.dropParents
  rw [Spec.edge?_filter]
  cases σ.isParentEdge c (EdgeKey.of a b) <;> cases σ.edge? a b <;> simp

theorem Spec.isParentEdge_of {σ : Spec} (c a b : NodeId) : σ.isParentEdge c (EdgeKey.of a b) = true ↔
    ∃ kc ko, σ.key? c = some kc ∧ kc.layer < ko.layer ∧
      ((a = c ∧ σ.key? b = some ko) ∨ (b = c ∧ σ.key? a = some ko)) := by
  unfold Spec.isParentEdge
  rw [EdgeKey.has_of]
  by_cases h1 : a = c
  · subst h1
    rw [EdgeKey.other_of_left]
    simp only [beq_self_eq_true, Bool.true_or, Bool.true_and, true_and]
    cases hc : σ.key? a with
    | none => simp
    | some kc =>
      cases ho : σ.key? b with
      | none =>
        simp only [Bool.false_eq_true, false_iff, not_exists]
        rintro kc' ko ⟨h1, h2, h3 | ⟨h3, h4⟩⟩
        · cases h3
        · cases h1; cases h4; subst h3; rw [ho] at hc; cases hc
      | some ko =>
        simp only [decide_eq_true_eq]
        constructor
        · intro h; exact ⟨kc, ko, rfl, h, .inl rfl⟩
        · rintro ⟨kc', ko', h1, h2, h3 | ⟨h3, h4⟩⟩
          · cases h1; cases h3; exact h2
          · cases h1; cases h4
            subst h3; rw [ho] at hc; cases hc
            exact h2
  · by_cases h2 : b = c
    · subst h2
      rw [EdgeKey.of_comm, EdgeKey.other_of_left]
      simp only [beq_self_eq_true, Bool.or_true, Bool.true_and, true_and, h1, false_and, false_or]
      cases hc : σ.key? b with
      | none => simp
      | some kc =>
        cases ho : σ.key? a with
        | none => simp
        | some ko => simp
    · simp [h1, h2]

/-- The pair `a`, `b` links `c` to a node of a higher layer. -/
def ParentLink (g : Graph) (c a b : NodeId) : Prop :=
  ∃ kc ko, g.getLayerForNode c = some kc ∧ kc.layer < ko.layer ∧
    ((a = c ∧ g.getLayerForNode b = some ko) ∨ (b = c ∧ g.getLayerForNode a = some ko))

open Classical in
/-- **C08.** `insertParentEdge(s, t)` between layers of different height succeeds iff both nodes are known and not yet
linked. Then the child (the lower of the two) has the other as its only parent (`hasParent()`, `getParent()`), the new edge has
the given orientation and attributes, all former parent edges of the child are gone, and nothing else changes. If refused,
the graph is unchanged. -/
theorem C08_insertParentEdge (h : Reached ids ops g) (s t : NodeId) (info : Option EdgeAttrs)
    (hh : ∀ ks kt, g.getLayerForNode s = some ks → g.getLayerForNode t = some kt → ks.layer ≠ kt.layer) :
    ∃ g' r, g.insertParentEdge s t info = .ok (g', r) ∧ Reached ids (ops ++ [.insertParentEdge s t info]) g' ∧
      (r = true ↔ g.hasNode s = true ∧ g.hasNode t = true ∧ g.hasEdge s t = .ok false) ∧
      (r = false → g' = g) ∧
      (r = true → g.SameFrame g' ∧ (∀ n, g'.nodeObs n = g.nodeObs n) ∧
        ∃ child parent kc kp, ((child = s ∧ parent = t) ∨ (child = t ∧ parent = s)) ∧
          g.getLayerForNode child = some kc ∧ g.getLayerForNode parent = some kp ∧ kc.layer < kp.layer ∧
          (∃ x, g'.findNode child = .ok (some x) ∧ (∀ q, x.parents.contains q = true ↔ q = parent) ∧
            x.hasParent = true ∧ x.getParent = some parent) ∧
          (∀ a b, g'.edgeObs a b =
            if (a = s ∧ b = t) ∨ (a = t ∧ b = s) then some ⟨s, t, info.getD {}⟩
            else if ParentLink g child a b then none else g.edgeObs a b)) := by
  obtain ⟨hr, hw⟩ := h.rep
  generalize hσ : (Spec.init ids).after ops = σ at hr hw
  have hne : ∀ ks kt, σ.key? s = some ks → σ.key? t = some kt → ks.layer ≠ kt.layer := by
    intro ks kt h1 h2; exact hh ks kt (by rw [hr.getLayerForNode, h1]) (by rw [hr.getLayerForNode, h2])
  have hok : (Op.insertParentEdge s t info).ok σ = true := by
    simp only [Op.ok, Bool.or_eq_true, decide_eq_true_eq]
    cases hs : σ.key? s with
    | none => simp
    | some ks =>
      left; right
      intro e
      exact hne ks ks hs e.symm rfl
  obtain ⟨g', heq, hreach, hr', hw', _⟩ := h.mut (.insertParentEdge s t info) hσ hok
    (r := g.insertParentEdge s t info) (s := σ.insertParentEdge s t info) rfl rfl
  refine ⟨g', _, heq, hreach, ?_, ?_, ?_⟩
  · rw [hr.hasNode, hr.hasNode, hr.hasEdge hw]
    unfold Spec.insertParentEdge
    cases hs : σ.nodes.find? s with
    | none => simp [Spec.key?, OMap.contains, hs]
    | some i =>
      cases ht : σ.nodes.find? t with
      | none => simp [Spec.key?, OMap.contains, hs, ht]
      | some j =>
        simp only [Spec.key?, OMap.contains, hs, ht, Option.map_some, Option.isSome_some, true_and, Res.ok.injEq]
        cases hE : σ.hasEdge s t <;> simp
  · intro hf; rw [hf] at heq; exact Graph.insertParentEdge_false heq
  · intro ht
    -- both known, not linked
    have hst : ∃ ks kt, σ.key? s = some ks ∧ σ.key? t = some kt ∧ σ.hasEdge s t = false := by
      unfold Spec.insertParentEdge at ht
      cases hs : σ.key? s with
      | none => simp [hs] at ht
      | some ks =>
        cases ht' : σ.key? t with
        | none => simp [hs, ht'] at ht
        | some kt =>
          refine ⟨ks, kt, rfl, rfl, ?_⟩
          cases hE : σ.hasEdge s t
          · rfl
          · simp [hs, ht', hE] at ht
    obtain ⟨ks, kt, hks, hkt, hE⟩ := hst
    have hnodes : (σ.insertParentEdge s t info).1.nodes = σ.nodes := Spec.nodes_insertParentEdge ..
    have hkey : ∀ n, (σ.insertParentEdge s t info).1.key? n = σ.key? n := by intro n; simp [Spec.key?, hnodes]
    -- child and parent
    have hcp : ∃ child parent kc kp, ((child = s ∧ parent = t) ∨ (child = t ∧ parent = s)) ∧ σ.key? child = some kc ∧
        σ.key? parent = some kp ∧ kc.layer < kp.layer ∧
        (σ.insertParentEdge s t info).1 = (σ.dropParents child).addEdge s t (info.getD {}) := by
      by_cases hlt : kt.layer < ks.layer
      · exact ⟨t, s, kt, ks, .inr ⟨rfl, rfl⟩, hkt, hks, hlt, by simp [Spec.insertParentEdge, hks, hkt, hE, hlt]⟩
      · refine ⟨s, t, ks, kt, .inl ⟨rfl, rfl⟩, hks, hkt, ?_, by simp [Spec.insertParentEdge, hks, hkt, hE, hlt]⟩
        have := hne ks kt hks hkt
        rw [UInt64.lt_iff_toNat_lt] at hlt ⊢
        rw [ne_eq, ← UInt64.toNat_inj] at this
        omega
    obtain ⟨child, parent, kc, kp, hpair, hkc, hkp, hlt, hS⟩ := hcp
    have hedge : ∀ a b, (σ.insertParentEdge s t info).1.edge? a b = if (a = s ∧ b = t) ∨ (a = t ∧ b = s) then some ⟨s, t, info.getD {}⟩
            else if σ.isParentEdge child (EdgeKey.of a b) then none else σ.edge? a b := by
      intro a b; rw [hS, Spec.edge?_addEdge, Spec.edge?_dropParents]
    refine ⟨?_, ?_, child, parent, kc, kp, hpair, by rw [hr.getLayerForNode, hkc], by rw [hr.getLayerForNode, hkp], hlt, ?_, ?_⟩
    · refine hr.sameFrame hr' ?_ ?_ ?_ <;> simp [hS, Spec.addEdge, Spec.dropParents]
    · intro n; rw [hr'.nodeObs hw', hr.nodeObs hw, hnodes]
    · have hci : ∃ i, σ.nodes.find? child = some i ∧ i.key = kc := by
        unfold Spec.key? at hkc; rw [Option.map_eq_some_iff] at hkc; exact hkc
      obtain ⟨i, hi, hik⟩ := hci
      refine ⟨_, by rw [hr'.findNode hw', hnodes, hi]; rfl, ?_⟩
      have hmem : ∀ q, ((σ.insertParentEdge s t info).1.parents child i.key).contains q = true ↔ q = parent := by
        intro q
        rw [Spec.parents, Spec.contains_nbrs, hkey, Spec.hasEdge_edge?, hedge, Bool.and_eq_true, hik]
        constructor
        · rintro ⟨h1, h2⟩
          by_cases hq : (child = s ∧ q = t) ∨ (child = t ∧ q = s)
          · rcases hpair with ⟨e1, e2⟩ | ⟨e1, e2⟩
            · rcases hq with ⟨_, e⟩ | ⟨e3, e⟩
              · rw [e, e2]
              · rw [e, e2, ← e1, e3]
            · rcases hq with ⟨e3, e⟩ | ⟨_, e⟩
              · rw [e, e2, ← e1, e3]
              · rw [e, e2]
          · exfalso
            rw [if_neg hq] at h2
            cases hkq : σ.key? q with
            | none => rw [hkq] at h1; cases h1
            | some kq =>
              rw [hkq] at h1
              have : σ.isParentEdge child (EdgeKey.of child q) = true :=
                (Spec.isParentEdge_of child child q).2 ⟨kc, kq, hkc, by simpa using h1, .inl ⟨rfl, hkq⟩⟩
              simp [this] at h2
        · rintro rfl
          refine ⟨by simp [hkp, hlt], ?_⟩
          rw [if_pos]
          · rfl
          · rcases hpair with ⟨e1, e2⟩ | ⟨e1, e2⟩
            · exact .inl ⟨e1, e2⟩
            · exact .inr ⟨e1, e2⟩
      have hsing : (σ.insertParentEdge s t info).1.parents child i.key = (∅ : OSet NodeId).add parent := by
        apply OMap.set_ext
        intro q
        rw [OMap.contains_add]
        have := hmem q
        cases hx : ((σ.insertParentEdge s t info).1.parents child i.key).contains q
        · rw [hx] at this
          have : q ≠ parent := by simpa using this
          simp [Ne.symm this, OMap.contains]
        · rw [this.1 hx]; simp
      refine ⟨hmem, ?_, ?_⟩
      · simp only [Node.hasParent, Spec.mkNode, hsing]; rfl
      · simp only [Node.getParent, Spec.mkNode, hsing]; rfl
    · intro a b
      rw [hr'.edgeObs hw', hr.edgeObs hw, hedge]
      have : ParentLink g child a b ↔ σ.isParentEdge child (EdgeKey.of a b) = true := by
        rw [Spec.isParentEdge_of]; unfold ParentLink; simp only [hr.getLayerForNode]
      simp only [this]

/-- C08 applies to a child that already has a parent. -/
example : Reached [2, 3] [.emplaceNode 2 1 Sample.at0, .emplaceNode 3 2 Sample.at0, .emplaceNode 3 3 Sample.at0, .insertEdge 2 1 none]
    (match Graph.exec [2, 3] [.emplaceNode 2 1 Sample.at0, .emplaceNode 3 2 Sample.at0, .emplaceNode 3 3 Sample.at0, .insertEdge 2 1 none] with
      | .ok (g, _) => g | _ => ⟨[], ∅, ∅, ∅, {}, {}, none⟩) :=
  ⟨by decide, by decide +kernel, ⟨[.bool true, .bool true, .bool true, .bool true], by decide +kernel⟩⟩
example : (match Graph.exec [2, 3] [.emplaceNode 2 1 Sample.at0, .emplaceNode 3 2 Sample.at0, .emplaceNode 3 3 Sample.at0,
      .insertEdge 2 1 none, .insertParentEdge 1 3 none] with
      | .ok (g, outs) => (outs.getLast?, g.hasEdge 1 2, g.hasEdge 1 3) | _ => (none, .ub, .ub)) = (some (.bool true), .ok false, .ok true) := by
  decide +kernel

/-- **C08, what the node queries say.** `getParent()` names a node exactly if it is the only parent, so a node with several parents has none for it;
`hasParent()` says the same; `hasSiblings()` and `hasChildren()` say whether there is any, and `connections()` lists every neighbour. -/
theorem C08_queries (x : Node) :
    (∀ p, x.getParent = some p ↔ ∀ q, x.parents.contains q = true ↔ q = p) ∧
    (x.hasParent = true ↔ ∃ p, x.getParent = some p) ∧
    (x.hasSiblings = true ↔ ∃ q, x.siblings.contains q = true) ∧
    (x.hasChildren = true ↔ ∃ q, x.children.contains q = true) ∧
    (∀ q, q ∈ x.connections ↔ x.siblings.contains q = true ∨ x.children.contains q = true ∨ x.parents.contains q = true) := by
  have hm : ∀ (m : OSet NodeId) q, m.contains q = true ↔ q ∈ m.keys := fun m q => by simp [OMap.contains_eq_true, OMap.mem_keys]
  have hne : ∀ (m : OSet NodeId), (m.size != 0) = true ↔ ∃ q, m.contains q = true := by
    intro m
    simp only [hm, ← OMap.length_keys]
    cases m.keys with
    | nil => simp
    | cons a l => simp
  have hp : ∀ p, x.getParent = some p ↔ ∀ q, x.parents.contains q = true ↔ q = p := by
    intro p
    simp only [hm, Node.getParent, ← OMap.length_keys]
    have hn := x.parents.keys_nodup
    match h : x.parents.keys with
    | [] => simp
    | [a] => simp [eq_comm]; constructor
             · rintro rfl q; exact Iff.rfl
             · intro h; exact ((h p).2 rfl).symm
    | a :: b :: l =>
      rw [h] at hn
      simp only [List.length_cons, List.head?_cons]
      constructor
      · intro h'; simp at h'
      · intro h'
        have h1 := (h' a).1 (by simp)
        have h2 := (h' b).1 (by simp)
        subst h1; subst h2
        simp at hn
  refine ⟨hp, ?_, hne _, hne _, ?_⟩
  · simp only [Node.hasParent, Node.getParent]
    by_cases h : x.parents.size = 1
    · simp only [h, beq_self_eq_true, true_iff, bne_self_eq_false, Bool.false_eq_true, if_false]
      rw [← OMap.length_keys] at h
      match h' : x.parents.keys with
      | [] => rw [h'] at h; simp at h
      | a :: l => exact ⟨a, rfl⟩
    · simp [h]
  · intro q; simp only [Node.connections, List.mem_append, hm, or_assoc]

/-- With two parents, `getParent()` answers nothing. -/
example : (match Graph.exec [2, 3] [.emplaceNode 2 1 Sample.at0, .emplaceNode 3 2 Sample.at0, .emplaceNode 3 3 Sample.at0, .insertEdge 2 1 none,
      .insertEdge 3 1 none] with
    | .ok (g, _) => (match g.findNode 1 with | .ok (some x) => (x.parents.keys, x.getParent) | _ => ([], none)) | _ => ([], none)) = ([2, 3], none) := by
  decide +kernel

/-- **C10.** A call that answers `false` leaves the graph exactly as it was, change logs and stale marks included. -/
theorem C10_refused_changes_nothing (h : Reached ids ops g) {op : Op} {g' : Graph} (he : g.step op = .ok (g', .bool false)) :
    g' = g :=
  h.rep.1.step_false he

/-- Refused calls exist for every kind of mutator. -/
example : ∀ op ∈ ([.createDyn 2 Sample.pa, .emplaceNode 2 10 Sample.at0, .emplaceNode 9 99 Sample.at0, .insertNode 3 10 none Sample.at0,
      .emplaceDyn 2 Sample.pa 100 Sample.at0 true, .emplacePrev 2 (Sample.a 2) 5 Sample.at0, .addOrUpdateNode 9 99 Sample.at0 none,
      .setNodeAttrs 99 Sample.at0, .insertEdge 10 12 none, .insertEdge 10 10 none, .insertParentEdge 21 10 none,
      .setEdgeAttrs 20 12 {}, .removeNode 99, .removeEdge 20 12, .mergeNodes 10 10, .mergeNodes 10 20, .addOrUpdateEdge 10 99 none] : List Op),
    (match Sample.state.step op with | .ok (_, .bool false) => true | _ => false) = true := by decide +kernel

/-! ## C09 -/

/-- `p` is a parent of `n`: linked, and in a higher layer. -/
def Spec.isParent (σ : Spec) (n p : NodeId) : Prop :=
  σ.hasEdge n p = true ∧ ∃ kn kp, σ.key? n = some kn ∧ σ.key? p = some kp ∧ kn.layer < kp.layer

/-- The call keeps the hierarchy a tree: edges between different layer ids are only inserted with `insertParentEdge`, and
two nodes that both have parents are merged only if it is the same one. -/
def Op.treeOk (σ : Spec) : Op → Bool
  | .insertEdge s t _ | .addOrUpdateEdge s t _ => σ.hasEdge s t || (σ.key? s).isNone || (σ.key? t).isNone ||
      decide ((σ.key? s).map LayerKey.layer = (σ.key? t).map LayerKey.layer)
  | .mergeNodes f t =>
    match σ.key? f with
    | none => true
    | some k => (σ.parents f k).keys.all (fun p => (σ.parents t k).keys.all (fun q => decide (p = q)))
  | _ => true

/-- All calls of a history keep the hierarchy a tree. -/
def Op.treeAll (σ : Spec) : List Op → Bool
  | [] => true
  | op :: ops => op.treeOk σ && Op.treeAll (σ.step op).1 ops

/-- Every node has at most one parent. -/
def Spec.OneParent (σ : Spec) : Prop := ∀ n p q, σ.isParent n p → σ.isParent n q → p = q

theorem Spec.OneParent.mono {σ σ' : Spec} (hw : SWF σ) (h : σ.OneParent)
    (hk : ∀ n k, σ.key? n = some k → σ'.key? n = some k ∨ σ'.key? n = none)
    (he : ∀ a b, σ'.hasEdge a b = true → σ.hasEdge a b = true ∨ (σ'.key? a).map LayerKey.layer = (σ'.key? b).map LayerKey.layer) :
    σ'.OneParent := by
  have key : ∀ n p, σ'.isParent n p → σ.isParent n p := by
    rintro n p ⟨h1, kn, kp, hn, hp, hl⟩
    rcases he n p h1 with h2 | h2
    · refine ⟨h2, kn, kp, ?_, ?_, hl⟩
      · obtain ⟨k, hk'⟩ := Spec.key_of_contains (hw.hasEdge_nodes h2).2.1
        rcases hk n k hk' with e | e
        · rw [hn] at e; cases e; exact hk'
        · rw [hn] at e; cases e
      · obtain ⟨k, hk'⟩ := Spec.key_of_contains (hw.hasEdge_nodes h2).2.2
        rcases hk p k hk' with e | e
        · rw [hp] at e; cases e; exact hk'
        · rw [hp] at e; cases e
    · rw [hn, hp] at h2
      simp only [Option.map_some, Option.some.injEq] at h2
      rw [h2] at hl
      exact absurd hl (by rw [UInt64.lt_iff_toNat_lt]; omega)
  intro n p q h1 h2
  exact h n p q (key n p h1) (key n q h2)

theorem Spec.hasEdge_of_edges {σ σ' : Spec} (h : σ'.edges = σ.edges) (a b : NodeId) : σ'.hasEdge a b = σ.hasEdge a b := by
  simp [Spec.hasEdge, h]

theorem Spec.hasEdge_insertEdge {σ : Spec} {s t : NodeId} {i : Option EdgeAttrs} {a b : NodeId}
    (h : (σ.insertEdge s t i).1.hasEdge a b = true) :
    σ.hasEdge a b = true ∨ (((a = s ∧ b = t) ∨ (a = t ∧ b = s)) ∧ σ.nodes.contains s = true ∧ σ.nodes.contains t = true ∧ σ.hasEdge s t = false) := by
  unfold Spec.insertEdge at h
  split at h
  · exact .inl h
  split at h
  · exact .inl h
  rename_i hn
  split at h
  · exact .inl h
  rename_i hE
  rw [Spec.hasEdge_edge?, Spec.edge?_addEdge] at h
  split at h
  · rename_i e
    simp only [Bool.or_eq_true, Bool.not_eq_true', not_or, Bool.not_eq_false] at hn
    exact .inr ⟨e, hn.1, hn.2, by simpa using hE⟩
  · exact .inl h

theorem Spec.edges_emplaceNode (σ : Spec) (l : LayerId) (n : NodeId) (st : Option Stamp) (a : NodeAttrs) :
    (σ.emplaceNode l n st a).1.edges = σ.edges := by
  unfold Spec.emplaceNode; split
  · rfl
  · split <;> rfl
theorem Spec.edges_emplacePrev (σ : Spec) (l : LayerId) (n : NodeId) (t : Stamp) (a : NodeAttrs) :
    (σ.emplacePrev l n t a).1.edges = σ.edges := by
  unfold Spec.emplacePrev; split <;> rfl
theorem Spec.edges_setNodeAttrs (σ : Spec) (n : NodeId) (a : NodeAttrs) : (σ.setNodeAttrs n a).1.edges = σ.edges := by
  unfold Spec.setNodeAttrs; split <;> rfl
theorem Spec.edges_createDyn (σ : Spec) (l : LayerId) (p : Prefix) : (σ.createDyn l p).1.edges = σ.edges := by
  unfold Spec.createDyn; split <;> rfl

theorem Spec.hasEdge_setEdgeAttrs (σ : Spec) (s t : NodeId) (x : EdgeAttrs) (a b : NodeId) :
    (σ.setEdgeAttrs s t x).1.hasEdge a b = σ.hasEdge a b := by
  unfold Spec.setEdgeAttrs
  split
  · rfl
  · rename_i e he
    simp only [Spec.hasEdge, OMap.contains_insert]
    by_cases h : EdgeKey.of s t = EdgeKey.of a b
    · rw [← h]
      have : σ.edges.contains (EdgeKey.of s t) = true := OMap.contains_eq_true.2 ⟨e, he⟩
      simp [this]
    · simp [h]

theorem Spec.OneParent.step {σ : Spec} (hw : SWF σ) (h : σ.OneParent) (op : Op) (ht : op.treeOk σ = true) :
    (σ.step op).1.OneParent := by
  have same : ∀ op, (σ.step op).1.edges = σ.edges → (σ.step op).1.OneParent := fun op he =>
    h.mono hw (fun n k => σ.step_key op) (fun a b hab => .inl (by rwa [Spec.hasEdge_of_edges he] at hab))
  have sub : ∀ op, (∀ a b, (σ.step op).1.hasEdge a b = true → σ.hasEdge a b = true) → (σ.step op).1.OneParent := fun op he =>
    h.mono hw (fun n k => σ.step_key op) (fun a b hab => .inl (he a b hab))
  have ins : ∀ op s t i, (∀ a b, (σ.step op).1.hasEdge a b = true → (σ.insertEdge s t i).1.hasEdge a b = true) →
      (σ.step op).1.nodes = σ.nodes → (σ.hasEdge s t || (σ.key? s).isNone || (σ.key? t).isNone ||
      decide ((σ.key? s).map LayerKey.layer = (σ.key? t).map LayerKey.layer)) = true → (σ.step op).1.OneParent := by
    intro op s t i he hn hc
    refine h.mono hw (fun n k => σ.step_key op) (fun a b hab => ?_)
    rcases Spec.hasEdge_insertEdge (he a b hab) with h1 | ⟨h1, h2, h3, h4⟩
    · exact .inl h1
    · right
      obtain ⟨ks, hs⟩ := Spec.key_of_contains h2
      obtain ⟨kt, ht⟩ := Spec.key_of_contains h3
      simp only [h4, hs, ht, Option.isNone_some, Bool.false_or, Option.map_some, Option.some.injEq, decide_eq_true_eq] at hc
      have hk : ∀ n, (σ.step op).1.key? n = σ.key? n := by intro n; simp [Spec.key?, hn]
      rw [hk, hk]
      rcases h1 with ⟨rfl, rfl⟩ | ⟨rfl, rfl⟩ <;> simp [hs, ht, hc]
  cases op
  case clear => exact sub .clear (fun a b hab => by cases hab)
  case reset ids => exact sub (.reset ids) (fun a b hab => by cases hab)
  case createDyn l p => exact same (.createDyn l p) (Spec.edges_createDyn ..)
  case emplaceNode l n a => exact same (.emplaceNode l n a) (Spec.edges_emplaceNode ..)
  case insertNode l n st a => exact same (.insertNode l n st a) (Spec.edges_emplaceNode ..)
  case emplaceDyn l p t a link =>
    refine h.mono hw (fun n k => σ.step_key (.emplaceDyn l p t a link)) ?_
    intro x y hxy
    simp only [Spec.step, Spec.ans] at hxy ⊢
    unfold Spec.emplaceDyn at hxy ⊢
    simp only at hxy ⊢
    split at hxy
    · exact .inl hxy
    split at hxy
    · exact .inl hxy
    rename_i h1 h2
    simp only [h1, h2, if_false, Bool.false_eq_true]
    split at hxy
    · rename_i h3
      simp only [h3, if_true]
      rw [Spec.hasEdge_edge?, Spec.edge?_addEdge] at hxy
      split at hxy
      · rename_i e
        right
        simp only [Bool.and_eq_true, decide_eq_true_eq] at h3
        have hkn : ∀ z, ((({ σ with dyn := σ.dyn.insert (l, p) ⟨(σ.dynInfo l p).next + 1, (σ.dynInfo l p).top + 1⟩ } : Spec).addNode
            (p.makeId (σ.dynInfo l p).next) ⟨.dyn l p, some t, a⟩).addEdge (p.makeId ((σ.dynInfo l p).next - 1))
            (p.makeId (σ.dynInfo l p).next) {}).key? z = if p.makeId (σ.dynInfo l p).next = z then some (.dyn l p) else σ.key? z := by
          intro z
          simp only [Spec.key?, Spec.addEdge, Spec.addNode, OMap.find?_insert]
          split <;> simp
        rw [hkn, hkn]
        rcases e with ⟨rfl, rfl⟩ | ⟨rfl, rfl⟩
        · simp only [if_true]; split <;> simp [h3.2]
        · simp only [if_true]; split <;> simp [h3.2]
      · exact .inl hxy
    · exact .inl hxy
  case emplacePrev l n t a => exact same (.emplacePrev l n t a) (Spec.edges_emplacePrev ..)
  case addOrUpdateNode l n a st =>
    refine same (.addOrUpdateNode l n a st) ?_
    simp only [Spec.step, Spec.ans, Spec.addOrUpdateNode]
    split
    · rfl
    split
    · exact Spec.edges_setNodeAttrs ..
    split
    · exact Spec.edges_emplacePrev ..
    · exact Spec.edges_emplaceNode ..
  case setNodeAttrs n a => exact same (.setNodeAttrs n a) (Spec.edges_setNodeAttrs ..)
  case insertEdge s t i => exact ins (.insertEdge s t i) s t i (fun a b h => h) (Spec.nodes_insertEdge ..) ht
  case addOrUpdateEdge s t i =>
    refine ins (.addOrUpdateEdge s t i) s t i (fun a b h => ?_) (Spec.nodes_addOrUpdateEdge ..) ht
    simp only [Spec.step, Spec.ans, Spec.addOrUpdateEdge] at h
    split at h
    · rename_i hE
      rw [Spec.hasEdge_setEdgeAttrs] at h
      unfold Spec.insertEdge
      split
      · exact h
      split
      · exact h
      simp only [hE, if_true]; exact h
    · exact h
  case setEdgeAttrs s t a =>
    exact sub (.setEdgeAttrs s t a) (fun x y h => by simpa only [Spec.step, Spec.ans, Spec.hasEdge_setEdgeAttrs] using h)
  case findEdge s t => exact same (.findEdge s t) (Spec.edges_touch ..)
  case removeEdge s t =>
    refine sub (.removeEdge s t) (fun a b hab => ?_)
    simp only [Spec.step, Spec.ans, Spec.removeEdge] at hab
    split at hab
    · rw [Spec.hasEdge_edge?, Spec.edge?_eraseEdge] at hab
      split at hab
      · cases hab
      · exact hab
    · exact hab
  case setMesh m => exact same (.setMesh m) rfl
  case markStale => exact same .markStale rfl
  case newNodes c => exact same (.newNodes c) rfl
  case removedNodes c => exact same (.removedNodes c) rfl
  case newEdges c => exact same (.newEdges c) rfl
  case removedEdges c => exact same (.removedEdges c) rfl
  case sweep =>
    refine sub .sweep (fun a b hab => ?_)
    simp only [Spec.step, Spec.sweep] at hab
    rw [Spec.hasEdge_edge?, Spec.edge?_filter] at hab
    rw [Spec.hasEdge_edge?]
    cases he : σ.edge? a b
    · rw [he] at hab; cases hab
    · rfl
  case removeNode n =>
    refine h.mono hw (fun m k => σ.step_key (.removeNode n)) ?_
    intro a b hab
    simp only [Spec.step, Spec.ans, Spec.removeNode] at hab ⊢
    split at hab
    · rename_i hn
      simp only [hn, if_true]
      rw [Spec.hasEdge_edge?, Spec.edge?_dropNode] at hab
      split at hab
      · cases hab
      · rename_i hne
        by_cases hb : σ.bridges n
        · rw [Spec.bridge_pos hb, Spec.edge?_addEdge] at hab
          split at hab
          · rename_i e
            right
            obtain ⟨l, p, _, k1, k2, _⟩ := hb
            have hk : ∀ z, z ≠ n → ((σ.bridge n).dropNode n).key? z = σ.key? z := by
              intro z hz
              simp only [Spec.key?, Spec.dropNode, Spec.nodes_bridge, OMap.find?_erase, Ne.symm hz, if_false]
            rw [not_or] at hne
            rw [hk a hne.1, hk b hne.2]
            rcases e with ⟨rfl, rfl⟩ | ⟨rfl, rfl⟩ <;> simp [k1, k2]
          · exact .inl hab
        · rw [Spec.bridge_neg hb] at hab
          exact .inl hab
    · exact .inl hab
  case insertParentEdge s t i =>
    show (σ.insertParentEdge s t i).1.OneParent
    by_cases hc : ∃ ks kt, σ.key? s = some ks ∧ σ.key? t = some kt ∧ σ.hasEdge s t = false
    · obtain ⟨ks, kt, hs, htt, hE⟩ := hc
      have hcp : ∃ child other kc ko, ((child = s ∧ other = t) ∨ (child = t ∧ other = s)) ∧ σ.key? child = some kc ∧
          σ.key? other = some ko ∧ ¬ ko.layer < kc.layer ∧
          (σ.insertParentEdge s t i).1 = (σ.dropParents child).addEdge s t (i.getD {}) := by
        by_cases hlt : kt.layer < ks.layer
        · refine ⟨t, s, kt, ks, .inr ⟨rfl, rfl⟩, htt, hs, ?_, by simp [Spec.insertParentEdge, hs, htt, hE, hlt]⟩
          rw [UInt64.lt_iff_toNat_lt] at hlt ⊢; omega
        · exact ⟨s, t, ks, kt, .inl ⟨rfl, rfl⟩, hs, htt, hlt, by simp [Spec.insertParentEdge, hs, htt, hE, hlt]⟩
      obtain ⟨child, other, kc, ko, hpair, hkc, hko, hle, hS⟩ := hcp
      have hkey : ∀ n, (σ.insertParentEdge s t i).1.key? n = σ.key? n := by
        intro n; simp [Spec.key?, Spec.nodes_insertParentEdge]
      have key : ∀ n p, (σ.insertParentEdge s t i).1.isParent n p → (n = child ∧ p = other) ∨ (n ≠ child ∧ σ.isParent n p) := by
        rintro n p ⟨h1, kn, kp, hn, hp, hl⟩
        rw [hkey] at hn hp
        rw [Spec.hasEdge_edge?, hS, Spec.edge?_addEdge, Spec.edge?_dropParents] at h1
        by_cases hq : (n = s ∧ p = t) ∨ (n = t ∧ p = s)
        · have h2 : (n = child ∧ p = other) ∨ (n = other ∧ p = child) := by
            rcases hpair with ⟨rfl, rfl⟩ | ⟨rfl, rfl⟩
            · exact hq
            · exact hq.symm
          rcases h2 with h2 | ⟨rfl, rfl⟩
          · exact .inl h2
          · rw [hko] at hn; rw [hkc] at hp; cases hn; cases hp; exact absurd hl hle
        · rw [if_neg hq] at h1
          split at h1
          · cases h1
          · rename_i hnp
            right
            refine ⟨?_, h1, kn, kp, hn, hp, hl⟩
            rintro rfl
            exact hnp ((Spec.isParentEdge_of _ _ _).2 ⟨kn, kp, hn, hl, .inl ⟨rfl, hp⟩⟩)
      intro n p q h1 h2
      rcases key n p h1 with ⟨e1, rfl⟩ | ⟨e1, h1⟩ <;> rcases key n q h2 with ⟨e2, rfl⟩ | ⟨e2, h2⟩
      · rfl
      · exact absurd e1 e2
      · exact absurd e2 e1
      · exact h n p q h1 h2
    · have : (σ.insertParentEdge s t i).1 = σ := by
        unfold Spec.insertParentEdge
        split
        · rename_i ks kt hs htt
          split
          · rfl
          · rename_i hE; exact absurd ⟨ks, kt, hs, htt, by simpa using hE⟩ hc
        · rfl
      rw [this]; exact h
  case mergeNodes f t =>
    show (σ.mergeNodes f t).1.OneParent
    by_cases hc : f ≠ t ∧ ∃ k, σ.key? f = some k ∧ σ.key? t = some k
    · obtain ⟨hft, k, hkf, hkt⟩ := hc
      have hE := Spec.edge?_mergeNodes hw hft hkf hkt
      have hkey : ∀ n, (σ.mergeNodes f t).1.key? n = if f = n then none else σ.key? n := by
        intro n
        have hst : (σ.mergeNodes f t).1.nodes = σ.nodes.erase f := by simp [Spec.mergeNodes, hft, hkf, hkt]
        unfold Spec.key?
        rw [hst, OMap.find?_erase]
        split <;> rfl
      have some_or : ∀ (a b : Option EdgeInfo), (a.or b).isSome = true → a.isSome = true ∨ b.isSome = true := by
        intro a b; cases a <;> simp
      have hcomm : ∀ a b, σ.hasEdge a b = σ.hasEdge b a := by
        intro a b; simp [Spec.hasEdge, EdgeKey.of_comm a b]
      -- parents of `t` come from `t` or `f`
      have pt : ∀ p, (σ.mergeNodes f t).1.isParent t p → σ.isParent t p ∨ σ.isParent f p := by
        rintro p ⟨h1, kn, kp, hn, hp, hl⟩
        rw [hkey] at hn hp
        rw [Spec.hasEdge_edge?, hE] at h1
        have hpf : p ≠ f := by rintro rfl; simp at hp
        simp only [Ne.symm hpf, if_false] at hp
        simp only [hft, if_false, hkt] at hn
        cases hn
        simp only [Ne.symm hft, hpf, or_self, if_false, if_true] at h1
        split at h1
        · cases h1
        · rcases some_or _ _ h1 with h2 | h2
          · exact .inl ⟨h2, k, kp, hkt, hp, hl⟩
          · exact .inr ⟨by rw [Option.isSome_map] at h2; exact h2, k, kp, hkf, hp, hl⟩
      -- parents of other nodes are renamed
      have pn : ∀ n p, n ≠ t → (σ.mergeNodes f t).1.isParent n p → ∃ p0, σ.isParent n p0 ∧ p = if p0 = f then t else p0 := by
        rintro n p hnt ⟨h1, kn, kp, hn, hp, hl⟩
        rw [hkey] at hn hp
        rw [Spec.hasEdge_edge?, hE] at h1
        have hpf : p ≠ f := by rintro rfl; simp at hp
        have hnf : n ≠ f := by rintro rfl; simp at hn
        simp only [Ne.symm hpf, if_false] at hp
        simp only [Ne.symm hnf, if_false] at hn
        simp only [hnf, hpf, or_self, if_false, hnt] at h1
        split at h1
        · cases h1
        · split at h1
          · rename_i e
            subst e
            rw [hkt] at hp; cases hp
            rcases some_or _ _ h1 with h2 | h2
            · exact ⟨p, ⟨by rw [hcomm]; exact h2, kn, k, hn, hkt, hl⟩, by simp [hpf]⟩
            · exact ⟨f, ⟨by rw [hcomm]; rw [Option.isSome_map] at h2; exact h2, kn, k, hn, hkf, hl⟩, by simp⟩
          · exact ⟨p, ⟨h1, kn, kp, hn, hp, hl⟩, by simp [hpf]⟩
      have cross : ∀ p q, σ.isParent f p → σ.isParent t q → p = q := by
        rintro p q ⟨a1, kn, kp, a2, a3, a4⟩ ⟨b1, kn', kq, b2, b3, b4⟩
        rw [hkf] at a2; cases a2
        rw [hkt] at b2; cases b2
        simp only [Op.treeOk, hkf, List.all_eq_true, decide_eq_true_eq] at ht
        refine ht p ?_ q ?_
        · rw [OMap.mem_keys, Spec.parents, Spec.contains_nbrs, a3, a1]; simpa using a4
        · rw [OMap.mem_keys, Spec.parents, Spec.contains_nbrs, b3, b1]; simpa using b4
      intro n p q h1 h2
      by_cases hnt : n = t
      · subst hnt
        rcases pt p h1 with h1 | h1 <;> rcases pt q h2 with h2 | h2
        · exact h _ _ _ h1 h2
        · exact (cross q p h2 h1).symm
        · exact cross p q h1 h2
        · exact h _ _ _ h1 h2
      · obtain ⟨p0, h3, e3⟩ := pn n p hnt h1
        obtain ⟨q0, h4, e4⟩ := pn n q hnt h2
        rw [e3, e4, h n p0 q0 h3 h4]
    · have : (σ.mergeNodes f t).1 = σ := by
        unfold Spec.mergeNodes
        split
        · rfl
        · rename_i hft
          split
          · rename_i kf kt hf htt
            split
            · rfl
            · rename_i hk
              simp only [ne_eq, Classical.not_not] at hk
              subst hk
              exact absurd ⟨hft, kf, hf, htt⟩ hc
          · rfl
      rw [this]; exact h

theorem Spec.OneParent.after {σ : Spec} {g : Graph} (hr : R g σ) (hw : SWF σ) (h : σ.OneParent) {ops : List Op}
    (hok : Op.okAll σ ops = true) (ht : Op.treeAll σ ops = true) : (σ.after ops).OneParent := by
  induction ops generalizing σ g with
  | nil => exact h
  | cons op ops ih =>
    simp only [Op.okAll, Op.treeAll, Bool.and_eq_true] at hok ht
    obtain ⟨g1, _, _, _, h1, hw1, _⟩ := hr.step hw op hok.1
    exact ih h1 hw1 (h.step hw op ht.1) hok.2 ht.2

theorem Op.treeAll_append (σ : Spec) (a b : List Op) :
    Op.treeAll σ (a ++ b) = (Op.treeAll σ a && Op.treeAll (σ.after a) b) := by
  induction a generalizing σ with
  | nil => simp [Op.treeAll]
  | cons x a ih => simp [Op.treeAll, ih, Bool.and_assoc]

/-- **C09.** If between different layer ids only `insertParentEdge` inserts edges (and merges do not combine nodes with different
parents), then after every prefix of the history every node has at most one parent. -/
theorem C09_at_most_one_parent (h : Reached ids ops g) (ht : Op.treeAll (Spec.init ids) ops = true) {n : NodeId} {x : Node}
    (hx : g.findNode n = .ok (some x)) : x.parents.size ≤ 1 ∧ (x.parents.size ≠ 0 → x.hasParent = true) := by
  obtain ⟨hr, hw⟩ := h.rep
  obtain ⟨g0, _, hr0⟩ := R.create h.nonempty
  have h0 : (Spec.init ids).OneParent := by rintro a p q ⟨h1, _⟩; cases h1
  have h1 : ((Spec.init ids).after ops).OneParent := h0.after hr0 (SWF.empty ids) h.ok ht
  generalize (Spec.init ids).after ops = σ at hr hw h1
  rw [hr.findNode hw] at hx
  cases hn : σ.nodes.find? n with
  | none => rw [hn] at hx; cases hx
  | some i =>
    rw [hn] at hx
    simp only [Option.map_some, Res.ok.injEq, Option.some.injEq] at hx
    subst hx
    have hk : σ.key? n = some i.key := by simp [Spec.key?, hn]
    have par : ∀ p, p ∈ (σ.parents n i.key).keys → σ.isParent n p := by
      intro p hp
      rw [OMap.mem_keys, Spec.parents, Spec.contains_nbrs, Bool.and_eq_true] at hp
      cases hkp : σ.key? p with
      | none => rw [hkp] at hp; simp at hp
      | some kp => exact ⟨hp.2, i.key, kp, hk, hkp, by simpa [hkp] using hp.1⟩
    have : (σ.parents n i.key).size ≤ 1 := by
      rw [← OMap.length_keys]
      have hnd := (σ.parents n i.key).keys_nodup
      cases hl : (σ.parents n i.key).keys with
      | nil => simp
      | cons p l =>
        cases l with
        | nil => simp
        | cons q l =>
          exfalso
          rw [hl] at hnd par
          have := h1 n p q (par p (by simp)) (par q (by simp))
          subst this
          simp at hnd
    refine ⟨this, ?_⟩
    intro h0
    simp only [Spec.mkNode, Node.hasParent] at h0 ⊢
    simp; omega

/-- A history meeting the hypotheses, with several parent edges, a reparenting, a merge and a removal. -/
example : Op.okAll (Spec.init [2, 3, 4]) [.emplaceNode 2 1 Sample.at0, .emplaceNode 2 5 Sample.at0, .emplaceNode 3 2 Sample.at0, .emplaceNode 3 3 Sample.at0,
      .emplaceNode 4 4 Sample.at0, .insertEdge 1 5 none, .insertParentEdge 2 1 none, .insertParentEdge 2 5 none, .insertParentEdge 4 2 none,
      .mergeNodes 1 5, .insertParentEdge 5 3 none, .removeNode 2] = true ∧
    Op.treeAll (Spec.init [2, 3, 4]) [.emplaceNode 2 1 Sample.at0, .emplaceNode 2 5 Sample.at0, .emplaceNode 3 2 Sample.at0, .emplaceNode 3 3 Sample.at0,
      .emplaceNode 4 4 Sample.at0, .insertEdge 1 5 none, .insertParentEdge 2 1 none, .insertParentEdge 2 5 none, .insertParentEdge 4 2 none,
      .mergeNodes 1 5, .insertParentEdge 5 3 none, .removeNode 2] = true := by decide +kernel

/-- Without the condition on merges the claim fails: merging two nodes with different parents gives a node with two parents. -/
theorem C09_merge_can_give_two_parents :
    (match Graph.exec [2, 3] [.emplaceNode 2 1 Sample.at0, .emplaceNode 2 5 Sample.at0, .emplaceNode 3 2 Sample.at0, .emplaceNode 3 3 Sample.at0,
      .insertParentEdge 2 1 none, .insertParentEdge 3 5 none, .mergeNodes 1 5] with
      | .ok (g, _) => (g.adjObs 5).map (fun a => a.1.size) | _ => none) = some 2 := by decide +kernel

end Verif
