import Verif.Lemmas.Logger
/-! # The numbers of a log line are right -/

namespace Verif

variable {ids : List LayerId} {pre mid : List Op} {g : Graph} {σ : Spec}

theorem R.getNode (h : R g σ) (hw : SWF σ) {n : NodeId} {i : NodeInfo} (hi : σ.nodes.find? n = some i) :
    g.getNode n = .ok (σ.mkNode n i) := by
  unfold Graph.getNode
  rw [h.findNode hw, hi]
  rfl

theorem R.above_iff (h : R g σ) (hw : SWF σ) (n p : NodeId) :
    g.AboveNode n p ↔ σ.hasEdge n p = true ∧ ∃ kn kp, σ.key? n = some kn ∧ σ.key? p = some kp ∧ kn.layer < kp.layer := by
  unfold Graph.AboveNode
  simp only [h.hasEdge hw, h.getLayerForNode, Res.ok.injEq]

theorem Spec.hasEdge_swap (a b : NodeId) : σ.hasEdge a b = σ.hasEdge b a := by
  unfold Spec.hasEdge
  rw [EdgeKey.of_comm]

theorem R.hasParent_iff (h : R g σ) (hw : SWF σ) {n : NodeId} {i : NodeInfo} (hi : σ.nodes.find? n = some i) :
    (σ.mkNode n i).hasParent = true ↔ ∃ p, g.AboveNode n p ∧ ∀ q, g.AboveNode n q → q = p := by
  have hk : σ.key? n = some i.key := by simp [Spec.key?, hi]
  have hm : ∀ p, g.AboveNode n p ↔ p ∈ (σ.parents n i.key).keys := by
    intro p
    rw [h.above_iff hw, Spec.parents, Spec.mem_nbrs]
    cases hp : σ.key? p with
    | none => simp
    | some kp => simp [hk, and_comm]
  simp only [hm, Node.hasParent, Spec.mkNode, beq_iff_eq, ← OMap.length_keys]
  have hnd := OMap.keys_nodup (σ.parents n i.key)
  generalize (σ.parents n i.key).keys = L at hnd
  match L with
  | [] => simp
  | [a] => simp
  | a :: b :: L =>
    simp only [List.length_cons, Nat.succ.injEq, List.mem_cons]
    constructor
    · intro hh; omega
    · rintro ⟨p, -, hq⟩
      have := (hq a (.inl rfl)).trans (hq b (.inr (.inl rfl))).symm
      rw [List.nodup_cons] at hnd
      exact absurd (by rw [this]; exact List.mem_cons_self) hnd.1

theorem R.hasChildren_iff (h : R g σ) (hw : SWF σ) {n : NodeId} {i : NodeInfo} (hi : σ.nodes.find? n = some i) :
    (σ.mkNode n i).hasChildren = true ↔ ∃ c, g.AboveNode c n := by
  have hk : σ.key? n = some i.key := by simp [Spec.key?, hi]
  have hm : ∀ c, g.AboveNode c n ↔ c ∈ (σ.children n i.key).keys := by
    intro c
    rw [h.above_iff hw, Spec.children, Spec.mem_nbrs, Spec.hasEdge_swap c n]
    cases hp : σ.key? c with
    | none => simp
    | some kp => simp [hk, and_comm]
  simp only [hm, Node.hasChildren, Spec.mkNode, bne_iff_ne, ne_eq, ← OMap.length_keys, List.length_eq_zero_iff]
  rw [List.eq_nil_iff_forall_not_mem]
  simp

/-- Merged records of a static layer, in terms of the history. -/
theorem Reached.merged_iff {ops : List Op} (h0 : Reached ids ops g) (l : LayerId) (n : NodeId) :
    g.isMerged (.static l) n ↔ MergedAway ids ops n (.static l) := by
  obtain ⟨gi, hi⟩ := Reached.take (a := []) (b := ops) (by simpa using h0)
  obtain ⟨o0, e0, hok0⟩ := Reached.tail (a := []) (b := ops) (by simpa using h0) hi
  obtain ⟨hri, hwi⟩ := hi.rep
  have hno : ¬ gi.isMerged (.static l) n := by
    unfold Graph.isMerged; rw [hi.create_eq, Graph.clear_st]; simp
  have inl : ∀ os, (∃ rest, os ++ rest = ops) → (InLayer ids os n (.static l) ↔ ((Spec.init ids).after os).key? n = some (.static l)) := by
    rintro os ⟨rest, hrest⟩
    rw [← hrest] at h0
    have := Reached.inLayer_iff (pre := os) (mid := rest) h0 0 n (.static l)
    simpa using this
  rw [hri.merged_run hwi hok0 e0 n rfl]
  simp only [hno, and_false, false_or, Spec.after_nil]
  unfold MergedAway
  constructor
  · rintro ⟨a, t, b, rfl, h2, h3, h4⟩
    refine ⟨a, t, b, rfl, (inl a ⟨_, rfl⟩).2 h2, h3, fun j => ?_⟩
    rw [inl _ ⟨b.drop j, by rw [List.append_assoc, List.cons_append, List.take_append_drop]⟩]
    exact h4 j
  · rintro ⟨a, t, b, rfl, h2, h3, h4⟩
    refine ⟨a, t, b, rfl, (inl a ⟨_, rfl⟩).1 h2, h3, fun j => ?_⟩
    have := h4 j
    rw [inl _ ⟨b.drop j, by rw [List.append_assoc, List.cons_append, List.take_append_drop]⟩] at this
    exact this

/-- Records of removed nodes of a static layer, in terms of the history. -/
theorem Reached.deleted_iff (h : Reached ids (pre ++ mid) g)
    (hpre : pre = [] ∨ ∃ p op, pre = p ++ [op] ∧ (op = .removedNodes true ∨ op.wipes = true))
    (hmid : Op.removedNodes true ∉ mid) (hwipe : ∀ op ∈ mid, op.wipes = false) (l : LayerId) (n : NodeId) :
    g.view.st (.static l) n = some .deleted ↔ g.getLayerForNode n ≠ some (.static l) ∧
      (∃ j, InLayer ids (pre ++ mid.take j) n (.static l)) ∧ ¬ MergedAway ids (pre ++ mid) n (.static l) := by
  obtain ⟨hr, hw⟩ := h.rep
  obtain ⟨g0, h0⟩ := h.take
  obtain ⟨outs, e, hok⟩ := h.tail h0
  obtain ⟨hr0, hw0⟩ := h0.rep
  have hg := hr0.gone_run hw0 hok e hmid hwipe (n := n) (.static l)
  have hm := hr0.merged_run hw0 hok e n (k := .static l) rfl
  have hpads : ¬ ∃ j op, mid[j]? = some op ∧ (((Spec.init ids).after pre).after (mid.take j)).pads op (.static l) n := by
    rintro ⟨j, op, -, l', hl', -⟩; cases hl'
  rw [h0.no_gone hpre] at hg
  rw [← h.merged_iff, hr.getLayerForNode, Spec.after_append]
  rw [show (∃ j, InLayer ids (pre ++ mid.take j) n (.static l)) ↔
    ∃ j, (((Spec.init ids).after pre).after (mid.take j)).key? n = some (.static l) from exists_congr fun j => h.inLayer_iff j n _]
  have hd : g.view.st (.static l) n = some .deleted ↔ g.isGone (.static l) n ∧ ¬ g.isMerged (.static l) n := by
    unfold Graph.isGone Graph.isMerged
    constructor
    · intro hh; rw [hh]; simp
    · rintro ⟨h1 | h1, h2⟩
      · exact h1
      · exact absurd h1.2 h2
  rw [hd, hg]
  constructor
  · rintro ⟨⟨h1, h2⟩, h3⟩
    refine ⟨h1, ?_, h3⟩
    rcases h2 with h2 | h2 | h2
    · exact h2
    · apply Classical.byContradiction
      intro hno
      exact h3 (hm.2 (.inl ⟨hwipe, fun j hj => hno ⟨j, hj⟩, h2.2⟩))
    · exact absurd h2 hpads
  · rintro ⟨h1, h2, h3⟩
    exact ⟨⟨h1, .inl h2⟩, h3⟩

/-- The line written for a static layer of a reachable graph. -/
theorem Reached.layerRow (h : Reached ids (pre ++ mid) g)
    (hpre : pre = [] ∨ ∃ p op, pre = p ++ [op] ∧ (op = .removedNodes true ∨ op.wipes = true))
    (hmid : Op.removedNodes true ∉ mid) (hwipe : ∀ op ∈ mid, op.wipes = false) {l : LayerId} {x : Layer}
    (hx : g.layers.find? l = some x) : ∃ r, Logger.layerRow g x = .ok r ∧ r.Right ids pre mid g l := by
  obtain ⟨hr, hw⟩ := h.rep
  generalize hσ : (Spec.init ids).after (pre ++ mid) = σ at hr hw
  have hb : g.layerAt? (.static l) = some (.static x) := by simp [Graph.layerAt?, hx]
  have hst : ∀ n, g.view.st (.static l) n = x.status.find? n := by
    intro n; simp only [Graph.view, hb, Option.bind_some, BaseLayer.nst]
  have hlive : ∀ n s, x.status.find? n = some s → (s.present = true ↔ σ.key? n = some (.static l)) := by
    intro n s hs
    have h1 := hr.live (.static l) n
    rw [hst, hs, hr.node] at h1
    have h2 : NodeStatus.live (some s) = s.present := by cases s <;> rfl
    rw [← h2, h1]
    unfold Spec.nodeRec Spec.key?
    cases σ.nodes.find? n with
    | none => simp
    | some i => by_cases e : i.key = .static l <;> simp [e]
  have hpres : ∀ n, σ.key? n = some (.static l) → ∃ s, x.status.find? n = some s ∧ s.present = true := by
    intro n hn
    have h1 := hr.live (.static l) n
    rw [hst, hr.node] at h1
    obtain ⟨i, hi, hk⟩ := Spec.exists_of_key? hn
    simp only [Spec.nodeRec, hi, Option.bind_some, hk, if_true, Option.isSome_some] at h1
    cases hs : x.status.find? n with
    | none => rw [hs] at h1; cases h1
    | some s => exact ⟨s, rfl, by rw [hs] at h1; revert h1; cases s <;> simp [NodeStatus.live, NodeStatus.present]⟩
  let f : NodeId → Node := fun n => match σ.nodes.find? n with | some i => σ.mkNode n i | none => { id := n, layer := 0, attrs := none }
  have hf : ∀ n i, σ.nodes.find? n = some i → f n = σ.mkNode n i := by intro n i hi; simp only [f, hi]
  have hfold := Logger.count_fold (g := g) (f := f) x.status.toList (by
    intro e he hp
    obtain ⟨n, s⟩ := e
    obtain ⟨i, hi, -⟩ := Spec.exists_of_key? ((hlive n s (OMap.mem_toList.1 he)).1 hp)
    show g.getNode n = _
    rw [hr.getNode hw hi, hf n i hi]) {}
  refine ⟨_, by unfold Logger.layerRow; rw [hfold, Res.bind_ok]; rfl, ?_⟩
  simp only [Nat.zero_add]
  have inl : ∀ n, (g.getLayerForNode n = some (.static l)) ↔ ∃ s, x.status.find? n = some s ∧ s.present = true := by
    intro n
    rw [hr.getLayerForNode]
    constructor
    · exact hpres n
    · rintro ⟨s, h1, h2⟩; exact (hlive n s h1).1 h2
  refine ⟨?_, ?_, ?_, ?_, ?_, ?_⟩
  · exact howMany_entries _ _ inl
  · refine howMany_entries _ _ fun n => ?_
    rw [← h.deleted_iff hpre hmid hwipe, hst]
    simp
  · refine howMany_entries _ _ fun n => ?_
    rw [← h.merged_iff, Graph.isMerged, hst]
    simp
  · refine howMany_entries _ _ fun n => ?_
    rw [inl]
    constructor
    · rintro ⟨⟨s, h1, h2⟩, hp⟩
      obtain ⟨i, hi, -⟩ := Spec.exists_of_key? ((hlive n s h1).1 h2)
      refine ⟨s, h1, ?_⟩
      simp only [h2, hf n i hi, Bool.true_and]
      exact (hr.hasParent_iff hw hi).2 hp
    · rintro ⟨s, h1, h2⟩
      simp only [Bool.and_eq_true] at h2
      obtain ⟨i, hi, -⟩ := Spec.exists_of_key? ((hlive n s h1).1 h2.1)
      rw [hf n i hi] at h2
      exact ⟨⟨s, h1, h2.1⟩, (hr.hasParent_iff hw hi).1 h2.2⟩
  · refine howMany_entries _ _ fun n => ?_
    rw [inl]
    constructor
    · rintro ⟨⟨s, h1, h2⟩, hp⟩
      obtain ⟨i, hi, -⟩ := Spec.exists_of_key? ((hlive n s h1).1 h2)
      refine ⟨s, h1, ?_⟩
      simp only [h2, hf n i hi, Bool.true_and]
      exact (hr.hasChildren_iff hw hi).2 hp
    · rintro ⟨s, h1, h2⟩
      simp only [Bool.and_eq_true] at h2
      obtain ⟨i, hi, -⟩ := Spec.exists_of_key? ((hlive n s h1).1 h2.1)
      rw [hf n i hi] at h2
      exact ⟨⟨s, h1, h2.1⟩, (hr.hasChildren_iff hw hi).1 h2.2⟩
  · have hec : g.view.ec (.within (.static l)) = x.edges := by
      simp [Graph.view, Graph.ecAt?, hb, BaseLayer.ec]
    have hsz := hr.ec_size (.within (.static l))
    rw [hec] at hsz
    refine ⟨(σ.atPlace (.within (.static l))).map (fun k => (k.k1, k.k2)), ?_, ?_, by simpa using hsz⟩
    · rw [List.nodup_iff_pairwise_ne, List.pairwise_map]
      refine (List.nodup_iff_pairwise_ne.1 ((OMap.keys_nodup _).filter _)).imp ?_
      intro a b hab e
      rw [Prod.mk.injEq] at e
      apply hab
      cases a; cases b; simp_all
    · rintro ⟨a, b⟩
      simp only [Spec.atPlace, List.mem_map, List.mem_filter, OMap.mem_keys, decide_eq_true_eq, Prod.mk.injEq]
      rw [hr.hasEdge hw, hr.getLayerForNode, hr.getLayerForNode]
      simp only [Res.ok.injEq]
      have hplace : ∀ k : EdgeKey, σ.placeOf k = some (.within (.static l)) ↔
          σ.key? k.k1 = some (.static l) ∧ σ.key? k.k2 = some (.static l) := by
        intro k
        unfold Spec.placeOf
        cases σ.key? k.k1 with
        | none => simp
        | some ka =>
          cases σ.key? k.k2 with
          | none => simp
          | some kb =>
            by_cases e : ka = kb
            · subst e; simp [place]
            · simp [place, e]
              intro e1 e2
              exact e (e1.trans e2.symm)
      constructor
      · rintro ⟨k, ⟨hk, hp⟩, rfl, rfl⟩
        obtain ⟨e, he⟩ := OMap.contains_eq_true.1 hk
        obtain ⟨h1, h2, _, _⟩ := hw.edge k e he
        have h3 : k = EdgeKey.of k.k1 k.k2 := by
          rw [h1]; unfold EdgeKey.of
          simp only [EdgeKey.mk.injEq, UInt64.lt_iff_toNat_lt]
          grind
        refine ⟨?_, by unfold Spec.hasEdge; rw [← h3]; exact hk, (hplace k).1 hp⟩
        rw [h1]; unfold EdgeKey.of
        simp only [UInt64.lt_iff_toNat_lt, ne_eq, ← UInt64.toNat_inj] at h2 ⊢
        grind
      · rintro ⟨hab, hh, hp⟩
        have e1 : (EdgeKey.of a b).k1 = a := by
          unfold EdgeKey.of
          simp only [UInt64.lt_iff_toNat_lt] at hab ⊢
          grind
        have e2 : (EdgeKey.of a b).k2 = b := by
          unfold EdgeKey.of
          simp only [UInt64.lt_iff_toNat_lt] at hab ⊢
          grind
        exact ⟨EdgeKey.of a b, ⟨hh, (hplace _).2 (by rw [e1, e2]; exact hp)⟩, e1, e2⟩

end Verif
