import Verif.Lemmas.Merge11
/-! # Nodes and edges after `mergeGraph` -/

namespace Verif

section
variable {cfg : MergeConfig} {g o g' : Graph} {σ σ0 τ : Spec} {P : MergePar}

theorem From_static {ev : MergeEv} {n : NodeId} {x : NodeInfo} {l : LayerId} (h : ev.From τ) (hn : ev.node? = some n)
    (hx : τ.nodes.find? n = some x) (hk : x.key = .static l) : ev = .node l n x.attrs := by
  cases ev <;> simp only [MergeEv.node?, Option.some.injEq, reduceCtorEq] at hn
  case dynNode =>
    obtain ⟨y, h1, h2, -⟩ := h
    subst hn
    rw [hx] at h1; cases h1
    rw [hk] at h2; cases h2
  case rmNode =>
    subst hn
    have : τ.key? _ = none := h
    rw [Spec.key?_eq hx] at this
    cases this
  case node =>
    obtain ⟨y, h1, h2, h3⟩ := h
    subst hn
    rw [hx] at h1; cases h1
    rw [hk] at h2; cases h2
    rw [h3]

theorem From_dyn {ev : MergeEv} {n : NodeId} {x : NodeInfo} {l : LayerId} {p : Prefix} {t : Stamp} (h : ev.From τ) (hn : ev.node? = some n)
    (hx : τ.nodes.find? n = some x) (hk : x.key = .dyn l p) (hst : x.stamp = some t) : ev = .dynNode l p n t x.attrs := by
  cases ev <;> simp only [MergeEv.node?, Option.some.injEq, reduceCtorEq] at hn
  case dynNode =>
    obtain ⟨y, h1, h2, h3, h4⟩ := h
    subst hn
    rw [hx] at h1; cases h1
    rw [hk] at h2; cases h2
    rw [hst] at h3; cases h3
    rw [h4]
  case rmNode =>
    subst hn
    have : τ.key? _ = none := h
    rw [Spec.key?_eq hx] at this
    cases this
  case node =>
    obtain ⟨y, h1, h2, h3⟩ := h
    subst hn
    rw [hx] at h1; cases h1
    rw [hk] at h2; cases h2

theorem From_none {ev : MergeEv} {n : NodeId} (h : ev.From τ) (hn : ev.node? = some n) (hx : τ.nodes.find? n = none) : ∃ l, ev = .rmNode l n := by
  cases ev <;> simp only [MergeEv.node?, Option.some.injEq, reduceCtorEq] at hn
  case dynNode =>
    obtain ⟨y, h1, -⟩ := h
    subst hn
    rw [hx] at h1; cases h1
  case rmNode =>
    subst hn
    exact ⟨_, rfl⟩
  case node =>
    obtain ⟨y, h1, -⟩ := h
    subst hn
    rw [hx] at h1; cases h1

/-- a node event at `n` in the run -/
theorem merged_static {evs : List MergeEv} (hf : FitsAll P σ0 evs) (hfrom : ∀ ev ∈ evs, ev.From τ) {n : NodeId} {x : NodeInfo} {l : LayerId}
    (hx : τ.nodes.find? n = some x) (hk : x.key = .static l) (he : MergeEv.node l n x.attrs ∈ evs) :
    (σ0.merged P evs).nodes.find? n = ptFx P (.node l n x.attrs) n (σ0.nodes.find? n) := by
  rw [merged_nodes hf]
  exact (foldl_single (fun ev hev hn => From_static (hfrom ev hev) hn hx hk) (ptFx_idem _ n) _).2 he

theorem merged_dynNode {evs : List MergeEv} (hf : FitsAll P σ0 evs) (hfrom : ∀ ev ∈ evs, ev.From τ) {n : NodeId} {x : NodeInfo} {l : LayerId}
    {p : Prefix} {t : Stamp} (hx : τ.nodes.find? n = some x) (hk : x.key = .dyn l p) (hst : x.stamp = some t)
    (he : MergeEv.dynNode l p n t x.attrs ∈ evs) :
    (σ0.merged P evs).nodes.find? n = ptFx P (.dynNode l p n t x.attrs) n (σ0.nodes.find? n) := by
  rw [merged_nodes hf]
  exact (foldl_single (fun ev hev hn => From_dyn (hfrom ev hev) hn hx hk hst) (ptFx_idem _ n) _).2 he

theorem merged_gone {evs : List MergeEv} (hf : FitsAll P σ0 evs) (hfrom : ∀ ev ∈ evs, ev.From τ) {n : NodeId} {l : LayerId}
    (hx : τ.nodes.find? n = none) (he : MergeEv.rmNode l n ∈ evs) : (σ0.merged P evs).nodes.find? n = none := by
  rw [merged_nodes hf]
  exact (foldl_gone (fun ev hev hn => From_none (hfrom ev hev) hn hx) _).2 ⟨l, he⟩

theorem merged_kept {evs : List MergeEv} (hf : FitsAll P σ0 evs) {n : NodeId} (he : ∀ ev ∈ evs, ev.node? ≠ some n) :
    (σ0.merged P evs).nodes.find? n = σ0.nodes.find? n := by
  rw [merged_nodes hf, foldl_other he]

/-! ## Edges -/

/-- where an edge after a run comes from -/
theorem merged_origin {evs : List MergeEv} (hf : FitsAll P σ evs) {q : EdgeKey} {e : EdgeInfo} (h : (σ.merged P evs).edges.find? q = some e) :
    σ.edges.find? q = some e ∨ ∃ ev ∈ evs, ∃ s t a, ev.offers = some (s, t, a) ∧ q = EdgeKey.of s t ∧ e = ⟨s, t, a⟩ := by
  induction evs generalizing σ with
  | nil => exact .inl h
  | cons ev evs ih =>
    rw [Spec.merged_cons] at h
    rcases ih hf.2 h with h1 | ⟨ev', he, s, t, a, h1⟩
    · rcases plan_edges_add ev hf.1 h1 with h2 | ⟨s, t, a, h2, h3, h4, -⟩
      · exact .inl h2
      · exact .inr ⟨ev, List.mem_cons_self, s, t, a, h2, h3, h4⟩
    · exact .inr ⟨ev', List.mem_cons_of_mem _ he, s, t, a, h1⟩

/-- an edge no iteration of the run takes away -/
theorem Did.keeps {evs : List MergeEv} (hd : Did P g σ evs g') (hm : MInv P σ0 τ g σ) (hfrom : ∀ ev ∈ evs, ev.From τ) {q : EdgeKey} {e : EdgeInfo}
    (h : σ.edges.find? q = some e) (hk : ∀ ev ∈ evs, ∀ g σ, MInv P σ0 τ g σ → σ.edges.find? q = some e → ¬ ev.kills P σ q) :
    (σ.merged P evs).edges.find? q = some e := by
  have := hd.induct (fun g σ => MInv P σ0 τ g σ ∧ σ.edges.find? q = some e) ⟨hm, h⟩ (fun g σ ev g' hev hq hdo hf =>
    ⟨hq.1.step hdo hf (hfrom ev hev), plan_edges_keep ev hf hq.2 (hk ev hev g σ hq.1 hq.2)⟩)
  exact this.2

/-- a layer is touched by one event at most: an edge inside a layer is not taken away by what happens to other layers -/
theorem MInv.rmNode_key (hm : MInv P σ0 τ g σ) {n : NodeId} (ht : τ.key? n = none) {k k' : LayerKey} (h : σ.key? n = some k)
    (h0 : σ0.key? n = none ∨ σ0.key? n = some k') : k = k' := by
  rcases hm.keys n k h with h1 | ⟨-, h1⟩
  · rw [h1] at h0
    simpa using h0
  · rw [ht] at h1; cases h1

theorem EdgeKey.ends {q : EdgeKey} {s t n : NodeId} (hq : q = EdgeKey.of s t) (h : q.has n = true) : n = s ∨ n = t := by
  subst hq
  rw [EdgeKey.has_of, Bool.or_eq_true, beq_iff_eq, beq_iff_eq] at h
  rcases h with h | h
  · exact .inl h.symm
  · exact .inr h.symm

/-- An edge inside a layer is taken away only by a removal in that layer. -/
theorem kills_inside {ev : MergeEv} (hm : MInv P σ0 τ g σ) {s t : NodeId} {k : LayerKey} (hs : σ.key? s = some k) (ht : σ.key? t = some k)
    (hrm : ∀ l n, ev = .rmNode l n → τ.key? n = none ∧ (σ0.key? n = none ∨ σ0.key? n = some (.static l)))
    (h : ev.kills P σ (EdgeKey.of s t)) : ∃ l, k = .static l ∧ ((∃ n, ev = .rmNode l n ∧ (n = s ∨ n = t)) ∨ ∃ a b, ev = .rmEdge l a b ∧ EdgeKey.of s t = EdgeKey.of a b) := by
  cases ev with
  | rmNode l n =>
    obtain ⟨r1, r2⟩ := hrm l n rfl
    have hn : n = s ∨ n = t := EdgeKey.ends rfl h
    refine ⟨l, ?_, .inl ⟨n, rfl, hn⟩⟩
    rcases hn with rfl | rfl
    · exact hm.rmNode_key r1 hs r2
    · exact hm.rmNode_key r1 ht r2
  | rmEdge l a b =>
    obtain ⟨h1, h2, h3⟩ := h
    refine ⟨l, ?_, .inr ⟨a, b, rfl, h1⟩⟩
    rw [EdgeKey.of_inj] at h1
    rcases h1 with ⟨rfl, rfl⟩ | ⟨rfl, rfl⟩
    · rw [h2] at hs; cases hs; rfl
    · rw [h2] at ht; cases ht; rfl
  | inter s' t' a =>
    obtain ⟨-, -, -, ks, kt, -, -, h4⟩ := h
    exfalso
    generalize (if kt.layer < ks.layer then t' else s') = c at h4
    unfold Spec.isParentEdge at h4
    rw [Bool.and_eq_true] at h4
    obtain ⟨h5, h6⟩ := h4
    have key : σ.key? c = some k ∧ σ.key? ((EdgeKey.of s t).other c) = some k := by
      rcases EdgeKey.ends rfl h5 with rfl | rfl
      · exact ⟨hs, by rw [EdgeKey.other_of_left]; exact ht⟩
      · exact ⟨ht, by rw [EdgeKey.of_comm, EdgeKey.other_of_left]; exact hs⟩
    rw [key.1, key.2] at h6
    simp at h6
  | create => cases h
  | dynNode => cases h
  | node => cases h
  | edge => cases h

end
end Verif
