import Verif.Model.LayerApi
import Verif.Refine.Ids
/-! # A stand-alone layer refines a simple graph -/

namespace Verif

/-- The record without its siblings. -/
def Node.bare (x : Node) : Node := { x with siblings := ∅ }

/-- The layer stores exactly `σ`. -/
structure RL (l : Layer) (σ : LGraph) : Prop where
  id : l.id = σ.id
  nd : ∀ n, (l.nodes.find? n).map Node.bare = σ.nodes n
  sib : ∀ n x, l.nodes.find? n = some x → ∀ m, x.siblings.contains m = (σ.edges (EdgeKey.of n m)).isSome
  ed : ∀ k, l.edges.edges.find? k = σ.edges k
  nst : ∀ n, (l.status.find? n = some .new ∨ l.status.find? n = some .visible) ↔ σ.hasNode n = true
  est : ∀ k, (l.edges.status.find? k = some .new ∨ l.edges.status.find? k = some .visible) ↔ (σ.edges k).isSome = true
  wf : ∀ k e, σ.edges k = some e → k = EdgeKey.of e.source e.target ∧ e.source ≠ e.target ∧ σ.hasNode e.source = true ∧
    σ.hasNode e.target = true ∧ e.info.isSome = true

namespace RL
variable {l : Layer} {σ : LGraph}

theorem hasNode (h : RL l σ) (n : NodeId) : l.hasNode n = σ.hasNode n := by
  unfold Layer.hasNode LGraph.hasNode OMap.contains
  rw [← h.nd n]
  cases l.nodes.find? n <;> rfl

theorem hasEdge (h : RL l σ) (a b : NodeId) : l.hasEdge a b = σ.hasEdge a b := by
  unfold Layer.hasEdge EdgeContainer.contains LGraph.hasEdge OMap.contains
  rw [h.ed]

theorem edge_nodes (h : RL l σ) {a b : NodeId} (he : σ.hasEdge a b = true) : a ≠ b ∧ σ.hasNode a = true ∧ σ.hasNode b = true := by
  unfold LGraph.hasEdge at he
  obtain ⟨e, he⟩ := Option.isSome_iff_exists.1 he
  obtain ⟨h1, h2, h3, h4, _⟩ := h.wf _ e he
  rcases EdgeKey.of_inj.1 h1 with ⟨rfl, rfl⟩ | ⟨rfl, rfl⟩
  · exact ⟨h2, h3, h4⟩
  · exact ⟨h2.symm, h4, h3⟩

theorem consistent (h : RL l σ) : l.Consistent where
  ends a b he := by rw [h.hasEdge] at he; rw [h.hasNode, h.hasNode]; exact h.edge_nodes he
  siblings n x hx m := by rw [h.hasEdge]; rw [h.sib n x hx m]; rfl

theorem create (i : LayerId) : RL { id := i } (LGraph.empty i) where
  id := rfl
  nd _ := rfl
  sib n x hx := by simp at hx
  ed _ := rfl
  nst n := by simp [LGraph.hasNode, LGraph.empty]
  est k := by simp [LGraph.empty]
  wf k e he := by simp [LGraph.empty] at he

theorem find (h : RL l σ) {n : NodeId} (hn : σ.hasNode n = true) : ∃ x, l.nodes.find? n = some x := by
  rw [← h.hasNode] at hn; exact OMap.contains_eq_true.1 hn

theorem no_edges (h : RL l σ) {n : NodeId} (hn : σ.hasNode n = false) (m : NodeId) : σ.edges (EdgeKey.of n m) = none := by
  cases he : σ.edges (EdgeKey.of n m) with
  | none => rfl
  | some e =>
    have := (h.edge_nodes (a := n) (b := m) (by unfold LGraph.hasEdge; rw [he]; rfl)).2.1
    rw [hn] at this; cases this

/-- Adding a node that is not there. -/
theorem addNode (h : RL l σ) {n : NodeId} {x : Node} (hn : σ.hasNode n = false) (hx : x.siblings = ∅) :
    RL { l with status := l.status.insert n .new, nodes := l.nodes.insert n x } (σ.setNode n (some x)) where
  id := h.id
  nd m := by
    simp only [OMap.find?_insert, LGraph.setNode]
    by_cases hm : n = m
    · subst hm; simp [Node.bare, hx.symm]
    · have : ¬ m = n := fun e => hm e.symm
      simp [hm, this, h.nd]
  sib m y hy k := by
    simp only [OMap.find?_insert] at hy
    show _ = (σ.edges _).isSome
    split at hy
    · rename_i e; subst e; cases hy; rw [h.no_edges hn, hx]; rfl
    · exact h.sib m y hy k
  ed := h.ed
  nst m := by
    simp only [OMap.find?_insert, LGraph.hasNode, LGraph.setNode]
    by_cases hm : n = m
    · subst hm; simp
    · have : ¬ m = n := fun e => hm e.symm
      have h1 := h.nst m
      simp only [hm, this, if_false]
      exact h1
  est := h.est
  wf k e he := by
    obtain ⟨h1, h2, h3, h4, h5⟩ := h.wf k e he
    have key : ∀ m, σ.hasNode m = true → (σ.setNode n (some x)).hasNode m = true := by
      intro m hm
      simp only [LGraph.hasNode, LGraph.setNode]
      split
      · rfl
      · exact hm
    exact ⟨h1, h2, key _ h3, key _ h4, h5⟩

/-- Two sibling sets and the edge table change together. -/
theorem modEdge (h : RL l σ) {s t : NodeId} (hst : s ≠ t) {xs xt ys yt : Node} (hs : l.nodes.find? s = some xs) (ht : l.nodes.find? t = some xt)
    (es : ys.bare = xs.bare) (et : yt.bare = xt.bare) {e : Option Edge}
    (hss : ∀ m, ys.siblings.contains m = if m = t then e.isSome else xs.siblings.contains m)
    (hts : ∀ m, yt.siblings.contains m = if m = s then e.isSome else xt.siblings.contains m)
    {c : EdgeContainer} (hc : ∀ k, c.edges.find? k = if k = EdgeKey.of s t then e else l.edges.edges.find? k)
    (hcs : ∀ k, (c.status.find? k = some .new ∨ c.status.find? k = some .visible) ↔
      if k = EdgeKey.of s t then e.isSome = true else (l.edges.status.find? k = some .new ∨ l.edges.status.find? k = some .visible))
    (hwf : ∀ x, e = some x → EdgeKey.of s t = EdgeKey.of x.source x.target ∧ x.source ≠ x.target ∧ σ.hasNode x.source = true ∧
      σ.hasNode x.target = true ∧ x.info.isSome = true) :
    RL { l with nodes := (l.nodes.insert s ys).insert t yt, edges := c } (σ.setEdge (EdgeKey.of s t) e) where
  id := h.id
  nd n := by
    simp only [OMap.find?_insert]
    show _ = σ.nodes n
    rw [← h.nd n]
    by_cases h1 : t = n
    · subst h1; simp [ht, et]
    · by_cases h2 : s = n
      · subst h2; simp [h1, hs, es]
      · simp [h1, h2]
  sib n x hx m := by
    simp only [OMap.find?_insert] at hx
    simp only [LGraph.setEdge]
    have ne : ∀ n, n ≠ s → n ≠ t → ∀ m, EdgeKey.of n m ≠ EdgeKey.of s t := by
      intro n h1 h2 m hk
      rcases EdgeKey.of_inj.1 hk with ⟨rfl, _⟩ | ⟨rfl, _⟩
      · exact h1 rfl
      · exact h2 rfl
    by_cases h1 : t = n
    · subst h1
      rw [if_pos rfl] at hx; cases hx
      rw [hts m, h.sib t xt ht m]
      by_cases hm : m = s
      · subst hm; rw [if_pos rfl, if_pos (EdgeKey.of_comm _ _)]
      · rw [if_neg hm, if_neg]
        intro hk
        rcases EdgeKey.of_inj.1 hk with ⟨h3, _⟩ | ⟨_, h3⟩
        · exact hst h3.symm
        · exact hm h3
    · rw [if_neg h1] at hx
      by_cases h2 : s = n
      · subst h2
        rw [if_pos rfl] at hx; cases hx
        rw [hss m, h.sib s xs hs m]
        by_cases hm : m = t
        · subst hm; rw [if_pos rfl, if_pos rfl]
        · rw [if_neg hm, if_neg]
          intro hk
          rcases EdgeKey.of_inj.1 hk with ⟨_, h3⟩ | ⟨h3, _⟩
          · exact hm h3
          · exact hst h3
      · rw [if_neg h2] at hx
        rw [if_neg (ne n (fun e => h2 e.symm) (fun e => h1 e.symm) m)]
        exact h.sib n x hx m
  ed k := by
    show c.edges.find? k = _
    rw [hc]; simp only [LGraph.setEdge]; rw [h.ed]
  nst := h.nst
  est k := by
    show (c.status.find? k = _ ∨ c.status.find? k = _) ↔ _
    rw [hcs]
    simp only [LGraph.setEdge]
    by_cases hk : k = EdgeKey.of s t
    · simp [hk]
    · simp only [if_neg hk]; exact h.est k
  wf k x hx := by
    simp only [LGraph.setEdge] at hx
    show _ ∧ _ ∧ σ.hasNode _ = true ∧ σ.hasNode _ = true ∧ _
    split at hx
    · rename_i hk; subst hk; exact hwf x hx
    · exact h.wf k x hx

/-- `insertEdge`, when it is not refused. -/
theorem insertEdge (h : RL l σ) {s t : NodeId} (hst : s ≠ t) (hs : σ.hasNode s = true) (ht : σ.hasNode t = true) (hn : σ.hasEdge s t = false)
    (info : Option EdgeAttrs) : ∃ l', l.insertEdge s t info = .ok (l', true) ∧
      RL l' (σ.setEdge (EdgeKey.of s t) (some ⟨s, t, some (info.getD {})⟩)) := by
  obtain ⟨xs, hxs⟩ := h.find hs
  obtain ⟨xt, hxt⟩ := h.find ht
  have hne : l.edges.edges.find? (EdgeKey.of s t) = none := by
    rw [h.ed]; unfold LGraph.hasEdge at hn; simpa using hn
  refine ⟨{ l with nodes := (l.nodes.insert s { xs with siblings := xs.siblings.add t }).insert t { xt with siblings := xt.siblings.add s },
                   edges := l.edges.insert s t info }, ?_, ?_⟩
  · unfold Layer.insertEdge
    have hxt' : (l.nodes.insert s { xs with siblings := xs.siblings.add t }).find? t = some xt := by
      rw [OMap.find?_insert_ne _ _ hst]; exact hxt
    have h1 := h.hasEdge s t
    have h2 := h.hasNode s
    have h3 := h.hasNode t
    rw [hn] at h1; rw [hs] at h2; rw [ht] at h3
    rw [if_neg hst]
    simp only [h1, h2, h3, Layer.modNode, hxs, hxt', Res.bind_ok, Res.pure_eq, Bool.false_eq_true, if_false, Bool.not_true]
  · refine h.modEdge (ys := { xs with siblings := xs.siblings.add t }) (yt := { xt with siblings := xt.siblings.add s })
      (e := some ⟨s, t, some (info.getD {})⟩) hst hxs hxt rfl rfl ?_ ?_ ?_ ?_ ?_
    · intro m; simp only [OMap.contains_add, Option.isSome_some]; by_cases hm : t = m
      · subst hm; simp
      · have : ¬ m = t := fun e => hm e.symm
        simp [hm, this]
    · intro m; simp only [OMap.contains_add, Option.isSome_some]; by_cases hm : s = m
      · subst hm; simp
      · have : ¬ m = s := fun e => hm e.symm
        simp [hm, this]
    · intro k
      simp only [EdgeContainer.insert, OMap.find?_emplace, OMap.contains_eq_false.2 hne]
      by_cases hk : k = EdgeKey.of s t
      · subst hk; simp [hne]
      · have : ¬ EdgeKey.of s t = k := fun e => hk e.symm
        simp [hk, this]
    · intro k
      simp only [EdgeContainer.insert, OMap.find?_insert]
      by_cases hk : k = EdgeKey.of s t
      · subst hk; simp
      · have : ¬ EdgeKey.of s t = k := fun e => hk e.symm
        simp [hk, this]
    · rintro x hx; cases hx; exact ⟨rfl, hst, hs, ht, rfl⟩

theorem setEdge_none_of_absent {σ : LGraph} {k : EdgeKey} (h : σ.edges k = none) : σ.setEdge k none = σ := by
  unfold LGraph.setEdge
  cases σ with
  | mk i n e =>
    simp only [LGraph.mk.injEq, true_and]
    funext j
    by_cases hj : j = k
    · subst hj; simp; exact h.symm
    · simp [hj]

/-- `removeEdge` of a present edge. -/
theorem removeEdge (h : RL l σ) {s t : NodeId} (he : σ.hasEdge s t = true) :
    ∃ l', l.removeEdge s t = .ok (l', true) ∧ RL l' (σ.setEdge (EdgeKey.of s t) none) := by
  obtain ⟨hst, hs, ht⟩ := h.edge_nodes he
  obtain ⟨xs, hxs⟩ := h.find hs
  obtain ⟨xt, hxt⟩ := h.find ht
  obtain ⟨z, hz⟩ : ∃ z, l.edges.status.find? (EdgeKey.of s t) = some z := by
    rcases (h.est _).2 he with hh | hh <;> exact ⟨_, hh⟩
  refine ⟨{ l with nodes := (l.nodes.insert s { xs with siblings := xs.siblings.erase t }).insert t { xt with siblings := xt.siblings.erase s },
                   edges := { l.edges with status := l.edges.status.insert (EdgeKey.of s t) .deleted,
                                           edges := l.edges.edges.erase (EdgeKey.of s t) } }, ?_, ?_⟩
  · have hxt' : (l.nodes.insert s { xs with siblings := xs.siblings.erase t }).find? t = some xt := by
      rw [OMap.find?_insert_ne _ _ hst]; exact hxt
    have h1 := h.hasEdge s t
    rw [he] at h1
    unfold Layer.removeEdge
    simp only [h1, Layer.modNode, hxs, hxt', Res.bind_ok, Res.pure_eq, Bool.false_eq_true, if_false, Bool.not_true, EdgeContainer.remove, hz, Res.at?_some]
  · refine h.modEdge (ys := { xs with siblings := xs.siblings.erase t }) (yt := { xt with siblings := xt.siblings.erase s })
      (e := none) hst hxs hxt rfl rfl ?_ ?_ ?_ ?_ (by simp)
    · intro m; simp only [OMap.contains_erase, Option.isSome_none]; by_cases hm : t = m
      · subst hm; simp
      · have : ¬ m = t := fun e => hm e.symm
        simp [hm, this]
    · intro m; simp only [OMap.contains_erase, Option.isSome_none]; by_cases hm : s = m
      · subst hm; simp
      · have : ¬ m = s := fun e => hm e.symm
        simp [hm, this]
    · intro k
      simp only [OMap.find?_erase]
      by_cases hk : k = EdgeKey.of s t
      · subst hk; simp
      · have : ¬ EdgeKey.of s t = k := fun e => hk e.symm
        simp [hk, this]
    · intro k
      simp only [OMap.find?_insert]
      by_cases hk : k = EdgeKey.of s t
      · subst hk; simp
      · have : ¬ EdgeKey.of s t = k := fun e => hk e.symm
        simp [hk, this]

/-- Stale marks do not matter. -/
theorem stale (h : RL l σ) (st : OMap EdgeKey Bool) : RL { l with edges := { l.edges with stale := st } } σ where
  id := h.id
  nd := h.nd
  sib := h.sib
  ed := h.ed
  nst := h.nst
  est := h.est
  wf := h.wf

/-- `rewireEdge` of a present edge to a free pair. -/
theorem rewire_free (h : RL l σ) {s t s' t' : NodeId} {e : Edge} (he : σ.edges (EdgeKey.of s t) = some e) (hs' : σ.hasNode s' = true)
    (ht' : σ.hasNode t' = true) (hne : ¬ (s = s' ∧ t = t')) (hst' : s' ≠ t') (hn : σ.hasEdge s' t' = false) :
    ∃ l', l.rewireEdge s t s' t' = .ok (l', true) ∧
      RL l' ((σ.setEdge (EdgeKey.of s t) none).setEdge (EdgeKey.of s' t') (some ⟨s', t', e.info⟩)) := by
  have hE : σ.hasEdge s t = true := by unfold LGraph.hasEdge; rw [he]; rfl
  obtain ⟨hst, hs, ht⟩ := h.edge_nodes hE
  obtain ⟨a, ha⟩ := Option.isSome_iff_exists.1 (h.wf _ e he).2.2.2.2
  obtain ⟨l1, e1, h1⟩ := h.removeEdge hE
  have hn1 : (σ.setEdge (EdgeKey.of s t) none).hasEdge s' t' = false := by
    unfold LGraph.hasEdge LGraph.setEdge at *
    simp only
    split
    · rfl
    · exact hn
  obtain ⟨l2, e2, h2⟩ := h1.insertEdge hst' hs' ht' hn1 (some a)
  obtain ⟨xs, hxs⟩ := h.find hs
  obtain ⟨xt, hxt⟩ := h.find ht
  obtain ⟨z, hz⟩ : ∃ z, l.edges.status.find? (EdgeKey.of s t) = some z := by
    rcases (h.est _).2 hE with hh | hh <;> exact ⟨_, hh⟩
  have hed := h.ed (EdgeKey.of s t)
  rw [he] at hed
  have g1 := h.hasEdge s t
  have g2 := h.hasEdge s' t'
  have g3 := h.hasNode s'
  have g4 := h.hasNode t'
  rw [hE] at g1; rw [hn] at g2; rw [hs'] at g3; rw [ht'] at g4
  have hxt' : (l.nodes.insert s { xs with siblings := xs.siblings.erase t }).find? t = some xt := by
    rw [OMap.find?_insert_ne _ _ hst]; exact hxt
  -- the explicit form of the intermediate layers
  unfold Layer.removeEdge at e1
  simp only [g1, Layer.modNode, hxs, hxt', Res.bind_ok, Res.pure_eq, Bool.false_eq_true, if_false, Bool.not_true, EdgeContainer.remove, hz,
    Res.at?_some, Res.ok.injEq, Prod.mk.injEq, and_true] at e1
  obtain ⟨ys, hys⟩ := h1.find hs'
  obtain ⟨yt, hyt⟩ := h1.find ht'
  have hyt' : (l1.nodes.insert s' { ys with siblings := ys.siblings.add t' }).find? t' = some yt := by
    rw [OMap.find?_insert_ne _ _ hst']; exact hyt
  have k1 := h1.hasEdge s' t'
  have k2 := h1.hasNode s'
  have k3 := h1.hasNode t'
  rw [hn1] at k1
  rw [show (σ.setEdge (EdgeKey.of s t) none).hasNode s' = true from hs'] at k2
  rw [show (σ.setEdge (EdgeKey.of s t) none).hasNode t' = true from ht'] at k3
  unfold Layer.insertEdge at e2
  rw [if_neg hst'] at e2
  simp only [k1, k2, k3, Layer.modNode, hys, hyt', Res.bind_ok, Res.pure_eq, Bool.false_eq_true, if_false, Bool.not_true,
    Res.ok.injEq, Prod.mk.injEq, and_true] at e2
  refine ⟨{ l2 with edges := { l2.edges with stale := l.edges.stale.insert (EdgeKey.of s t) false } }, ?_, ?_⟩
  · unfold Layer.rewireEdge
    simp only [g1, g2, g3, g4, Bool.not_true, Bool.or_self, Bool.false_eq_true, if_false, hne, or_false, hst']
    simp only [EdgeContainer.rewire, EdgeContainer.findKey, hed, ha, Res.deref_some, Res.bind_ok, hz, Res.at?_some, EdgeContainer.remove,
      OMap.find?_insert_self, Res.pure_eq, Layer.modNode, hxs, hxt']
    rw [← e1] at hys hyt'
    simp only at hys hyt'
    rw [hys]
    simp only [Res.bind_ok]
    rw [hyt']
    simp only [Res.bind_ok]
    rw [← e2, ← e1]
    simp only [EdgeContainer.insert, OMap.insert_insert]
  · have := h2.stale (l.edges.stale.insert (EdgeKey.of s t) false)
    rw [ha]
    exact this

/-- `rewireEdge` of a present edge to a loop or an occupied pair. -/
theorem rewire_occupied (h : RL l σ) {s t s' t' : NodeId} (he : σ.hasEdge s t = true) (hs' : σ.hasNode s' = true)
    (ht' : σ.hasNode t' = true) (hne : ¬ (s = s' ∧ t = t')) (ho : s' = t' ∨ σ.hasEdge s' t' = true) :
    ∃ l', l.rewireEdge s t s' t' = .ok (l', true) ∧ RL l' (σ.setEdge (EdgeKey.of s t) none) := by
  obtain ⟨l1, e1, h1⟩ := h.removeEdge he
  refine ⟨l1, ?_, h1⟩
  have g1 := h.hasEdge s t
  have g3 := h.hasNode s'
  have g4 := h.hasNode t'
  rw [he] at g1; rw [hs'] at g3; rw [ht'] at g4
  rw [← h.hasEdge] at ho
  unfold Layer.rewireEdge
  simp only [g1, g3, g4, Bool.not_true, Bool.or_self, Bool.false_eq_true, if_false, hne]
  rw [if_pos ho, e1]; rfl

theorem rewire (h : RL l σ) {s t s' t' : NodeId} (he : σ.hasEdge s t = true) (hs' : σ.hasNode s' = true)
    (ht' : σ.hasNode t' = true) (hne : ¬ (s = s' ∧ t = t')) :
    ∃ l', l.rewireEdge s t s' t' = .ok (l', true) ∧ RL l' (σ.rewireEdge s t s' t') := by
  obtain ⟨e, he'⟩ := Option.isSome_iff_exists.1 he
  unfold LGraph.rewireEdge
  rw [he']
  by_cases ho : s' = t' ∨ σ.hasEdge s' t' = true
  · simp only [if_pos ho]
    exact h.rewire_occupied he hs' ht' hne ho
  · simp only [if_neg ho]
    have ho' := not_or.1 ho
    exact h.rewire_free he' hs' ht' hne ho'.1 (by simpa using ho'.2)

/-! ## Removing and merging nodes -/

/-- A node without edges is dropped. -/
theorem dropNode (h : RL l σ) {n : NodeId} (hn : ∀ k, LGraph.touches k n = true → σ.edges k = none) {st : NodeStatus}
    (hst : st ≠ .new) (hst' : st ≠ .visible) :
    RL { l with nodes := l.nodes.erase n, status := l.status.insert n st } (σ.setNode n none) where
  id := h.id
  nd m := by
    simp only [OMap.find?_erase, LGraph.setNode]
    by_cases hm : n = m
    · subst hm; simp
    · have : ¬ m = n := fun e => hm e.symm
      simp [hm, this, h.nd]
  sib m x hx k := by
    simp only [OMap.find?_erase] at hx
    split at hx
    · cases hx
    · exact h.sib m x hx k
  ed := h.ed
  nst m := by
    simp only [OMap.find?_insert, LGraph.hasNode, LGraph.setNode]
    by_cases hm : n = m
    · subst hm; simp [hst, hst']
    · have : ¬ m = n := fun e => hm e.symm
      have h1 := h.nst m
      simp only [hm, this, if_false]
      exact h1
  est := h.est
  wf k e he := by
    obtain ⟨h1, h2, h3, h4, h5⟩ := h.wf k e he
    have ht : LGraph.touches k n = false := by
      cases hh : LGraph.touches k n with
      | false => rfl
      | true => have := hn k hh; rw [show σ.edges k = some e from he] at this; cases this
    have key : ∀ m, (m = e.source ∨ m = e.target) → σ.hasNode m = true → (σ.setNode n none).hasNode m = true := by
      intro m hm hm'
      simp only [LGraph.hasNode, LGraph.setNode]
      rw [if_neg]
      · exact hm'
      · rintro rfl
        have : LGraph.touches k m = true := by
          rw [h1]
          rcases EdgeKey.of_eq e.source e.target with ⟨hk, _⟩ | ⟨hk, _⟩ <;> rw [hk] <;> rcases hm with rfl | rfl <;> simp [LGraph.touches]
        rw [this] at ht; cases ht
    exact ⟨h1, h2, key _ (.inl rfl) h3, key _ (.inr rfl) h4, h5⟩

theorem removeEdges (n : NodeId) : ∀ (L : List NodeId) (l : Layer) (σ : LGraph), RL l σ →
    ∃ l', foldRes (fun l t => (l.removeEdge n t) >>= fun r => .ok r.1) l L = .ok l' ∧
      RL l' { σ with edges := fun k => if ∃ x ∈ L, k = EdgeKey.of n x then none else σ.edges k } := by
  intro L
  induction L with
  | nil => intro l σ h; exact ⟨l, rfl, by simpa using h⟩
  | cons t L ih =>
    intro l σ h
    have step : ∃ l1, (l.removeEdge n t >>= fun r => .ok r.1) = .ok l1 ∧ RL l1 (σ.setEdge (EdgeKey.of n t) none) := by
      cases he : σ.hasEdge n t with
      | true =>
        obtain ⟨l1, e1, h1⟩ := h.removeEdge he
        exact ⟨l1, by rw [e1]; rfl, h1⟩
      | false =>
        refine ⟨l, ?_, ?_⟩
        · unfold Layer.removeEdge
          rw [h.hasEdge, he]; rfl
        · rw [setEdge_none_of_absent]
          · exact h
          · unfold LGraph.hasEdge at he; simpa using he
    obtain ⟨l1, e1, h1⟩ := step
    obtain ⟨l2, e2, h2⟩ := ih l1 _ h1
    refine ⟨l2, ?_, ?_⟩
    · rw [foldRes_cons, e1, Res.bind_ok, e2]
    · have : ({ σ.setEdge (EdgeKey.of n t) none with
          edges := fun k => if ∃ x ∈ L, k = EdgeKey.of n x then none else (σ.setEdge (EdgeKey.of n t) none).edges k } : LGraph) =
          { σ with edges := fun k => if ∃ x ∈ t :: L, k = EdgeKey.of n x then none else σ.edges k } := by
        simp only [LGraph.setEdge, LGraph.mk.injEq, true_and]
        funext k
        by_cases h3 : ∃ x ∈ L, k = EdgeKey.of n x
        · rw [if_pos h3, if_pos]
          obtain ⟨x, hx, hk⟩ := h3
          exact ⟨x, List.mem_cons_of_mem _ hx, hk⟩
        · rw [if_neg h3]
          by_cases h4 : k = EdgeKey.of n t
          · rw [if_pos h4, if_pos ⟨t, List.mem_cons_self, h4⟩]
          · rw [if_neg h4, if_neg]
            rintro ⟨x, hx, hk⟩
            rw [List.mem_cons] at hx
            rcases hx with rfl | hx
            · exact h4 hk
            · exact h3 ⟨x, hx, hk⟩
      rw [← this]; exact h2

theorem touches_of (a b n : NodeId) : LGraph.touches (EdgeKey.of a b) n = true ↔ a = n ∨ b = n := by
  rcases EdgeKey.of_eq a b with ⟨hk, _⟩ | ⟨hk, _⟩ <;> rw [hk] <;> simp [LGraph.touches]
  exact Or.comm

theorem other_of {a b : NodeId} (h : a ≠ b) : LGraph.other (EdgeKey.of a b) a = b ∧ LGraph.other (EdgeKey.of a b) b = a := by
  rcases EdgeKey.of_eq a b with ⟨hk, _⟩ | ⟨hk, _⟩ <;> rw [hk] <;> simp [LGraph.other]
  · intro hh; exact absurd hh h
  · intro hh; exact absurd hh.symm h

theorem removeNode (h : RL l σ) {n : NodeId} (hn : σ.hasNode n = true) :
    ∃ l', l.removeNode n = .ok (l', true) ∧ RL l' (σ.removeNode n) := by
  obtain ⟨x, hx⟩ := h.find hn
  obtain ⟨l1, e1, h1⟩ := removeEdges n x.siblings.keys l σ h
  have hedges : (fun k => if ∃ y ∈ x.siblings.keys, k = EdgeKey.of n y then none else σ.edges k) =
      (fun k => if LGraph.touches k n then none else σ.edges k) := by
    funext k
    by_cases ht : LGraph.touches k n = true
    · rw [if_pos ht]
      split
      · rfl
      · rename_i hno
        cases he : σ.edges k with
        | none => rfl
        | some e =>
          obtain ⟨hk, _⟩ := h.wf k e he
          exfalso; apply hno
          rw [hk, touches_of] at ht
          rcases ht with ht | ht
          · refine ⟨e.target, ?_, by rw [hk, ht]⟩
            rw [OMap.mem_keys, h.sib n x hx, ← ht, ← hk, he]; rfl
          · refine ⟨e.source, ?_, by rw [hk, ht, EdgeKey.of_comm]⟩
            rw [OMap.mem_keys, h.sib n x hx, ← ht, EdgeKey.of_comm, ← hk, he]; rfl
    · rw [if_neg ht, if_neg]
      rintro ⟨y, _, rfl⟩
      exact ht ((touches_of n y n).2 (.inl rfl))
  rw [hedges] at h1
  refine ⟨{ l1 with nodes := l1.nodes.erase n, status := l1.status.insert n .deleted }, ?_, ?_⟩
  · unfold Layer.removeNode
    rw [hx]
    simp only [e1, Res.bind_ok, Res.pure_eq]
  · exact h1.dropNode (n := n) (fun k hk => by simp only; rw [if_pos hk]) (by decide) (by decide)

/-- Edges after the neighbours in `P` have been moved from `f` to `t`. -/
def movedEdges (σ : LGraph) (f t : NodeId) (P : List NodeId) (k : EdgeKey) : Option Edge :=
  if ∃ x ∈ P, k = EdgeKey.of f x then none
  else match σ.edges k with
    | some e => some e
    | none =>
      if k = EdgeKey.of t (LGraph.other k t) ∧ LGraph.other k t ≠ t ∧ LGraph.other k t ∈ P then
        (match σ.edges (EdgeKey.of f (LGraph.other k t)) with
         | some e => some ⟨t, LGraph.other k t, e.info⟩
         | none => none)
      else none

theorem moveEdges {σ0 : LGraph} {f t : NodeId} (hft : f ≠ t) (ht : σ0.hasNode t = true) : ∀ (L P : List NodeId) (l : Layer) (σ : LGraph), RL l σ →
    σ.id = σ0.id → σ.nodes = σ0.nodes → (∀ k, σ.edges k = movedEdges σ0 f t P k) → (P ++ L).Nodup →
    (∀ x ∈ L, σ0.hasEdge f x = true ∧ σ0.hasNode x = true ∧ x ≠ f) →
    ∃ l' σ', foldRes (fun l x => (l.rewireEdge f x t x) >>= fun r => .ok r.1) l L = .ok l' ∧ RL l' σ' ∧ σ'.id = σ0.id ∧
      σ'.nodes = σ0.nodes ∧ ∀ k, σ'.edges k = movedEdges σ0 f t (P ++ L) k := by
  intro L
  induction L with
  | nil => intro P l σ h h0 h1 h2 _ _; exact ⟨l, σ, rfl, h, h0, h1, by simpa using h2⟩
  | cons x L ih =>
    intro P l σ h h0 h1 h2 hnd hL
    obtain ⟨hE, hx, hxf⟩ := hL x List.mem_cons_self
    have hxP : x ∉ P := by
      intro hh
      exact (List.nodup_append.1 hnd).2.2 x hh x List.mem_cons_self rfl
    have hnode : ∀ m, σ.hasNode m = σ0.hasNode m := by intro m; unfold LGraph.hasNode; rw [h1]
    -- the edge f–x is still there, unchanged
    have hfx : σ.edges (EdgeKey.of f x) = σ0.edges (EdgeKey.of f x) := by
      rw [h2]
      unfold movedEdges
      rw [if_neg]
      · obtain ⟨e, he⟩ := Option.isSome_iff_exists.1 hE
        rw [he]
      · rintro ⟨y, hy, hk⟩
        rcases EdgeKey.of_inj.1 hk with ⟨_, rfl⟩ | ⟨rfl, h3⟩
        · exact hxP hy
        · exact hxf h3
    obtain ⟨e, he⟩ := Option.isSome_iff_exists.1 hE
    have hE' : σ.hasEdge f x = true := by unfold LGraph.hasEdge; rw [hfx]; exact hE
    obtain ⟨l1, e1, r1⟩ := h.rewire hE' (by rw [hnode]; exact ht) (by rw [hnode]; exact hx) (s' := t) (t' := x) (by rintro ⟨h3, _⟩; exact hft h3)
    have hkeep : ∀ k, (σ.rewireEdge f x t x).edges k = movedEdges σ0 f t (P ++ [x]) k := by
      intro k
      unfold LGraph.rewireEdge
      rw [hfx, he]
      simp only
      have hin : ∀ y, y ∈ P ++ [x] ↔ y ∈ P ∨ y = x := by intro y; simp
      by_cases hk : k = EdgeKey.of f x
      · -- the moved pair is free now
        have lhs : (if t = x ∨ σ.hasEdge t x = true then σ.setEdge (EdgeKey.of f x) none
            else (σ.setEdge (EdgeKey.of f x) none).setEdge (EdgeKey.of t x) (some ⟨t, x, e.info⟩)).edges k = none := by
          split
          · simp only [LGraph.setEdge]; rw [if_pos hk]
          · simp only [LGraph.setEdge]
            rw [if_neg, if_pos hk]
            rw [hk]; intro h3
            rcases EdgeKey.of_inj.1 h3 with ⟨h4, _⟩ | ⟨h4, _⟩
            · exact hft h4
            · exact hxf h4.symm
        rw [lhs]
        unfold movedEdges
        rw [if_pos ⟨x, by simp, hk⟩]
      · by_cases hkt : t ≠ x ∧ k = EdgeKey.of t x
        · obtain ⟨htx, hkt⟩ := hkt
          have ho := (other_of htx).1
          have hnf : ¬ ∃ y ∈ P, k = EdgeKey.of f y := by
            rintro ⟨y, hy, h3⟩
            rw [hkt] at h3
            rcases EdgeKey.of_inj.1 h3 with ⟨h4, _⟩ | ⟨_, h4⟩
            · exact hft h4.symm
            · exact hxf h4
          have hnf' : ¬ ∃ y ∈ P ++ [x], k = EdgeKey.of f y := by
            rintro ⟨y, hy, h3⟩
            rw [hkt] at h3
            rcases EdgeKey.of_inj.1 h3 with ⟨h4, _⟩ | ⟨_, h4⟩
            · exact hft h4.symm
            · exact hxf h4
          have hσt : σ.edges k = σ0.edges k := by
            rw [h2]; unfold movedEdges
            rw [if_neg hnf]
            cases hk0 : σ0.edges k with
            | some e' => rfl
            | none =>
              simp only
              rw [if_neg]
              rintro ⟨_, _, h5⟩
              rw [hkt, ho] at h5
              exact hxP h5
          have hhas : σ.hasEdge t x = (σ0.edges k).isSome := by unfold LGraph.hasEdge; rw [← hkt, hσt]
          unfold movedEdges
          rw [if_neg hnf']
          cases hk0 : σ0.edges k with
          | some e' =>
            rw [if_pos (by rw [hhas, hk0]; exact .inr rfl)]
            simp only [LGraph.setEdge]
            rw [if_neg hk, hσt, hk0]
          | none =>
            rw [if_neg (by rw [hhas, hk0]; simp [htx])]
            simp only [LGraph.setEdge]
            rw [if_pos hkt]
            have : k = EdgeKey.of t (LGraph.other k t) ∧ LGraph.other k t ≠ t ∧ LGraph.other k t ∈ P ++ [x] := by
              rw [hkt, ho]; exact ⟨rfl, fun h3 => htx h3.symm, by simp⟩
            rw [if_pos this, hkt, ho, he]
        · -- another pair: unchanged
          have lhs : (if t = x ∨ σ.hasEdge t x = true then σ.setEdge (EdgeKey.of f x) none
              else (σ.setEdge (EdgeKey.of f x) none).setEdge (EdgeKey.of t x) (some ⟨t, x, e.info⟩)).edges k = σ.edges k := by
            split
            · simp only [LGraph.setEdge]; rw [if_neg hk]
            · rename_i h3
              simp only [LGraph.setEdge]
              rw [if_neg, if_neg hk]
              intro h4; exact hkt ⟨fun h5 => h3 (.inl h5), h4⟩
          rw [lhs, h2]
          unfold movedEdges
          have c1 : (∃ y ∈ P ++ [x], k = EdgeKey.of f y) ↔ ∃ y ∈ P, k = EdgeKey.of f y := by
            constructor
            · rintro ⟨y, hy, h3⟩
              rcases (hin y).1 hy with hy | rfl
              · exact ⟨y, hy, h3⟩
              · exact absurd h3 hk
            · rintro ⟨y, hy, h3⟩; exact ⟨y, (hin y).2 (.inl hy), h3⟩
          have c2 : (k = EdgeKey.of t (LGraph.other k t) ∧ LGraph.other k t ≠ t ∧ LGraph.other k t ∈ P ++ [x]) ↔
              (k = EdgeKey.of t (LGraph.other k t) ∧ LGraph.other k t ≠ t ∧ LGraph.other k t ∈ P) := by
            constructor
            · rintro ⟨h3, h4, h5⟩
              refine ⟨h3, h4, ?_⟩
              rcases (hin _).1 h5 with h5 | h5
              · exact h5
              · exfalso
                rw [h5] at h3 h4
                exact hkt ⟨fun h6 => h4 h6.symm, h3⟩
            · rintro ⟨h3, h4, h5⟩; exact ⟨h3, h4, (hin _).2 (.inl h5)⟩
          by_cases hc1 : ∃ y ∈ P, k = EdgeKey.of f y
          · rw [if_pos hc1, if_pos (c1.2 hc1)]
          · rw [if_neg hc1, if_neg (fun hh => hc1 (c1.1 hh))]
            by_cases hc2 : k = EdgeKey.of t (LGraph.other k t) ∧ LGraph.other k t ≠ t ∧ LGraph.other k t ∈ P
            · rw [if_pos hc2, if_pos (c2.2 hc2)]
            · rw [if_neg hc2, if_neg (fun hh => hc2 (c2.1 hh))]
    have hid : (σ.rewireEdge f x t x).id = σ.id ∧ (σ.rewireEdge f x t x).nodes = σ.nodes := by
      unfold LGraph.rewireEdge
      split
      · exact ⟨rfl, rfl⟩
      · split <;> exact ⟨rfl, rfl⟩
    obtain ⟨l2, σ2, e2, r2, i2, n2, k2⟩ := ih (P ++ [x]) l1 _ r1 (hid.1.trans h0) (hid.2.trans h1) hkeep (by simpa using hnd)
      (fun y hy => hL y (List.mem_cons_of_mem _ hy))
    refine ⟨l2, σ2, ?_, r2, i2, n2, ?_⟩
    · rw [foldRes_cons, e1]; exact e2
    · intro k; rw [k2 k]; simp

theorem mergeNodes (h : RL l σ) {f t : NodeId} (hf : σ.hasNode f = true) (ht : σ.hasNode t = true) (hft : f ≠ t) :
    ∃ l', l.mergeNodes f t = .ok (l', true) ∧ RL l' (σ.mergeNodes f t) := by
  obtain ⟨x, hx⟩ := h.find hf
  have hkeys : ∀ y, y ∈ x.siblings.keys ↔ σ.hasEdge f y = true := by
    intro y; rw [OMap.mem_keys, h.sib f x hx]; rfl
  obtain ⟨l1, σ1, e1, r1, i1, n1, k1⟩ := moveEdges (σ0 := σ) hft ht x.siblings.keys [] l σ h rfl rfl
    (by intro k; unfold movedEdges; cases σ.edges k <;> simp) (by simpa using OMap.keys_nodup x.siblings)
    (by
      intro y hy
      have he := (hkeys y).1 hy
      have := h.edge_nodes he
      exact ⟨he, this.2.2, this.1.symm⟩)
  have htouch : ∀ k, LGraph.touches k f = true → (∃ y ∈ x.siblings.keys, k = EdgeKey.of f y) ∨ σ.edges k = none := by
    intro k hk
    cases he : σ.edges k with
    | none => exact .inr rfl
    | some e =>
      left
      obtain ⟨h1, _⟩ := h.wf k e he
      rw [h1, touches_of] at hk
      rcases hk with hk | hk
      · refine ⟨e.target, ?_, by rw [h1, hk]⟩
        rw [hkeys]; unfold LGraph.hasEdge; rw [← hk, ← h1, he]; rfl
      · refine ⟨e.source, ?_, by rw [h1, hk, EdgeKey.of_comm]⟩
        rw [hkeys]; unfold LGraph.hasEdge; rw [← hk, EdgeKey.of_comm, ← h1, he]; rfl
  have hedges : σ1.edges = (σ.mergeNodes f t).edges := by
    funext k
    rw [k1, List.nil_append]
    unfold movedEdges LGraph.mergeNodes
    simp only
    by_cases hk : LGraph.touches k f = true
    · rw [if_pos hk]
      rcases htouch k hk with h3 | h3
      · rw [if_pos h3]
      · split
        · rfl
        · rw [h3]
          simp only
          split
          · rename_i h4
            exfalso
            have h5 := (hkeys _).1 h4.2.2
            have h6 := (h.edge_nodes h5).1
            rw [h4.1, touches_of] at hk
            rcases hk with hk | hk
            · exact hft hk.symm
            · exact h6 hk.symm
          · rfl
    · rw [if_neg hk, if_neg]
      · cases he : σ.edges k with
        | some e => rfl
        | none =>
          simp only
          by_cases hc : k = EdgeKey.of t (LGraph.other k t) ∧ LGraph.other k t ≠ t
          · rw [if_pos hc]
            by_cases hm : LGraph.other k t ∈ x.siblings.keys
            · rw [if_pos ⟨hc.1, hc.2, hm⟩]
              cases σ.edges (EdgeKey.of f (LGraph.other k t)) <;> rfl
            · rw [if_neg (fun hh => hm hh.2.2)]
              rw [hkeys] at hm
              unfold LGraph.hasEdge at hm
              cases hh : σ.edges (EdgeKey.of f (LGraph.other k t)) with
              | none => rfl
              | some e => rw [hh] at hm; exact absurd rfl hm
          · rw [if_neg hc, if_neg (fun hh => hc ⟨hh.1, hh.2.1⟩)]
      · rintro ⟨y, _, rfl⟩
        exact hk ((touches_of _ _ _).2 (.inl rfl))
  refine ⟨{ l1 with nodes := l1.nodes.erase f, status := l1.status.insert f .merged }, ?_, ?_⟩
  · unfold Layer.mergeNodes
    have h3 := h.hasNode t
    rw [ht] at h3
    rw [hx]
    simp only [h3, hft, e1, Res.bind_ok, Res.pure_eq, Bool.not_true, Bool.false_eq_true, if_false]
  · have r2 := r1.dropNode (n := f) (fun k hk => by
      rw [hedges]; unfold LGraph.mergeNodes; simp only; rw [if_pos hk]) (st := .merged) (by decide) (by decide)
    have : σ1.setNode f none = σ.mergeNodes f t := by
      have h4 : σ1 = ⟨σ.id, σ.nodes, (σ.mergeNodes f t).edges⟩ := by
        cases σ1 with
        | mk i n e =>
          simp only at i1 n1 hedges
          rw [i1, n1, hedges]
      rw [h4]; rfl
    rw [← this]; exact r2

/-! ## Steps and histories -/

theorem findEdge (h : RL l σ) (s t : NodeId) : RL (l.findEdge s t).1 σ ∧ (l.findEdge s t).2 = σ.edges (EdgeKey.of s t) := by
  unfold Layer.findEdge EdgeContainer.find EdgeContainer.findKey
  rw [h.ed]
  cases hh : σ.edges (EdgeKey.of s t) with
  | none => exact ⟨h, rfl⟩
  | some e => exact ⟨h.stale _, rfl⟩

theorem newNodes (h : RL l σ) (c : Bool) : RL (l.getNewNodes c).1 σ := by
  cases c with
  | false => exact h
  | true =>
    refine ⟨h.id, h.nd, h.sib, h.ed, ?_, h.est, h.wf⟩
    intro n
    rw [← h.nst n]
    simp only [Layer.getNewNodes, if_true, OMap.find?_map]
    cases hs : l.status.find? n with
    | none => simp
    | some s => cases s <;> simp

theorem removedNodes (h : RL l σ) (c : Bool) : RL (l.getRemovedNodes c).1 σ := by
  cases c with
  | false => exact h
  | true =>
    refine ⟨h.id, h.nd, h.sib, h.ed, ?_, h.est, h.wf⟩
    intro n
    rw [← h.nst n]
    simp only [Layer.getRemovedNodes, if_true, OMap.find?_filter]
    cases hs : l.status.find? n with
    | none => simp
    | some s => cases s <;> simp

/-- Re-emplacing a present node only marks it NEW again. -/
theorem remark (h : RL l σ) {n : NodeId} (hn : σ.hasNode n = true) (x : Node) :
    RL { l with status := l.status.insert n .new, nodes := l.nodes.emplace n x } σ := by
  have : l.nodes.emplace n x = l.nodes := by
    unfold OMap.emplace; rw [if_pos]; rw [← h.hasNode] at hn; exact hn
  rw [this]
  refine ⟨h.id, h.nd, h.sib, h.ed, ?_, h.est, h.wf⟩
  intro m
  simp only [OMap.find?_insert]
  by_cases hm : n = m
  · subst hm; simp [hn]
  · simp only [hm, if_false]; exact h.nst m

theorem step (h : RL l σ) (op : LOp) (hok : op.ok = true) :
    ∃ l', l.step op = .ok (l', (σ.step op).2) ∧ RL l' (σ.step op).1 := by
  cases op with
  | emplaceNode n a =>
    simp only [Layer.step, LGraph.step, Layer.emplaceNode]
    have h1 : l.nodes.contains n = σ.hasNode n := h.hasNode n
    cases hn : σ.hasNode n with
    | true =>
      simp only [if_true]
      exact ⟨_, by rw [h1, hn]; rfl, h.remark hn _⟩
    | false =>
      rw [hn] at h1
      simp only [Bool.false_eq_true, if_false]
      refine ⟨_, by rw [h1]; rfl, ?_⟩
      have : l.nodes.emplace n { id := n, layer := l.id, attrs := a } = l.nodes.insert n { id := n, layer := σ.id, attrs := a } := by
        unfold OMap.emplace; rw [if_neg (by rw [h1]; simp), h.id]
      rw [this]
      exact h.addNode hn rfl
  | insertNode x =>
    have hx : x.siblings = ∅ := by
      simp only [LOp.ok, beq_iff_eq, OMap.size] at hok
      apply OMap.ext
      intro k
      simp only [OMap.find?]
      rw [List.eq_nil_of_length_eq_zero hok]; rfl
    simp only [Layer.step, LGraph.step, Layer.insertNode, h.hasNode, h.id]
    by_cases h1 : x.layer = σ.id
    · simp only [h1, ne_eq, not_true_eq_false, if_false, false_or]
      cases hn : σ.hasNode x.id with
      | true => simp only [if_true]; exact ⟨l, rfl, h⟩
      | false => simp only [Bool.false_eq_true, if_false]; exact ⟨_, rfl, by have := h.addNode hn hx; rw [h.id] at this; exact this⟩
    · simp only [h1, ne_eq, not_false_eq_true, if_true, true_or]; exact ⟨l, rfl, h⟩
  | removeNode n =>
    simp only [Layer.step, LGraph.step]
    cases hn : σ.hasNode n with
    | true => simp only [if_true]; exact h.removeNode hn
    | false =>
      simp only [Bool.false_eq_true, if_false]
      refine ⟨l, ?_, h⟩
      have : l.nodes.find? n = none := OMap.contains_eq_false.1 (by have := h.hasNode n; rw [hn] at this; exact this)
      unfold Layer.removeNode; rw [this]
  | mergeNodes f t =>
    simp only [Layer.step, LGraph.step]
    by_cases hc : (σ.hasNode f && σ.hasNode t && f != t) = true
    · rw [if_pos hc]
      simp only [Bool.and_eq_true, bne_iff_ne, ne_eq] at hc
      exact h.mergeNodes hc.1.1 hc.1.2 hc.2
    · rw [if_neg hc]
      refine ⟨l, ?_, h⟩
      unfold Layer.mergeNodes
      cases hx : l.nodes.find? f with
      | none => rfl
      | some x =>
        have hf : σ.hasNode f = true := by rw [← h.hasNode]; exact OMap.contains_eq_true.2 ⟨x, hx⟩
        simp only [h.hasNode]
        cases ht : σ.hasNode t with
        | false => simp
        | true =>
          rw [hf, ht] at hc
          simp only [Bool.and_self, Bool.true_and, bne_iff_ne, ne_eq, Classical.not_not] at hc
          simp [hc]
  | insertEdge s t info =>
    simp only [Layer.step, LGraph.step]
    by_cases hc : (σ.hasNode s && σ.hasNode t && s != t && !σ.hasEdge s t) = true
    · rw [if_pos hc]
      simp only [Bool.and_eq_true, bne_iff_ne, ne_eq, Bool.not_eq_true'] at hc
      exact h.insertEdge hc.1.2 hc.1.1.1 hc.1.1.2 hc.2 info
    · rw [if_neg hc]
      refine ⟨l, ?_, h⟩
      unfold Layer.insertEdge
      rw [h.hasEdge, h.hasNode, h.hasNode]
      by_cases h1 : s = t
      · rw [if_pos h1]
      · rw [if_neg h1]
        cases h2 : σ.hasEdge s t with
        | true => simp
        | false =>
          cases h3 : σ.hasNode s with
          | false => simp
          | true =>
            cases h4 : σ.hasNode t with
            | false => simp
            | true => rw [h2, h3, h4] at hc; simp [h1] at hc
  | removeEdge s t =>
    simp only [Layer.step, LGraph.step]
    cases he : σ.hasEdge s t with
    | true => simp only [if_true]; exact h.removeEdge he
    | false =>
      simp only [Bool.false_eq_true, if_false]
      refine ⟨l, ?_, h⟩
      unfold Layer.removeEdge; rw [h.hasEdge, he]; rfl
  | rewireEdge s t s' t' =>
    simp only [Layer.step, LGraph.step]
    by_cases hc : (σ.hasEdge s t && σ.hasNode s' && σ.hasNode t' && !(s == s' && t == t')) = true
    · rw [if_pos hc]
      simp only [Bool.and_eq_true, Bool.not_eq_true', Bool.and_eq_false_iff, beq_eq_false_iff_ne] at hc
      refine h.rewire hc.1.1.1 hc.1.1.2 hc.1.2 ?_
      rintro ⟨h1, h2⟩
      rcases hc.2 with hh | hh
      · exact hh h1
      · exact hh h2
    · rw [if_neg hc]
      refine ⟨l, ?_, h⟩
      unfold Layer.rewireEdge
      rw [h.hasEdge s t, h.hasNode, h.hasNode]
      cases h1 : σ.hasEdge s t with
      | false => simp
      | true =>
        cases h2 : σ.hasNode s' with
        | false => simp
        | true =>
          cases h3 : σ.hasNode t' with
          | false => simp
          | true =>
            rw [h1, h2, h3] at hc
            simp only [Bool.and_self, Bool.true_and, Bool.not_eq_true', Bool.not_eq_false, Bool.and_eq_true, beq_iff_eq] at hc
            simp [hc]
  | findEdge s t =>
    simp only [Layer.step, LGraph.step]
    refine ⟨_, ?_, (h.findEdge s t).1⟩
    rw [(h.findEdge s t).2]; rfl
  | newNodes c => exact ⟨_, rfl, h.newNodes c⟩
  | removedNodes c => exact ⟨_, rfl, h.removedNodes c⟩

theorem run (ops : List LOp) (hok : ∀ op ∈ ops, op.ok = true) : ∀ {l : Layer} {σ : LGraph}, RL l σ →
    ∃ l', l.run ops = .ok (l', (σ.run ops).2) ∧ RL l' (σ.run ops).1 := by
  induction ops with
  | nil => intro l σ h; exact ⟨l, rfl, h⟩
  | cons op ops ih =>
    intro l σ h
    obtain ⟨l1, e1, h1⟩ := h.step op (hok op List.mem_cons_self)
    obtain ⟨l2, e2, h2⟩ := ih (fun o ho => hok o (List.mem_cons_of_mem _ ho)) h1
    refine ⟨l2, ?_, h2⟩
    simp only [Layer.run, e1, Res.bind_ok, e2, LGraph.run]

end RL
end Verif
