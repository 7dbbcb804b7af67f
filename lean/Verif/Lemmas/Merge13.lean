import Verif.Lemmas.Merge12
/-! # The edges after `mergeGraph` -/

namespace Verif

section
variable {cfg : MergeConfig} {g o g' : Graph} {σ σ0 τ : Spec} {P : MergePar}

theorem Did.split {a b : List MergeEv} (h : Did P g σ (a ++ b) g') : ∃ g1, Did P g σ a g1 ∧ Did P g1 (σ.merged P a) b g' := by
  have hd := h.does
  rw [planAll_append] at hd
  obtain ⟨g1, h1, h2⟩ := hd.split
  have hf := (FitsAll_append a b).1 h.fits
  exact ⟨g1, ⟨h1, hf.1⟩, ⟨h2, hf.2⟩⟩

/-- An edge the other graph reports as removed is not kept. -/
theorem Did.edge_removed {evs : List MergeEv} (hd : Did P g σ0 evs g') (hm : MInv P σ0 τ g σ0) (hfrom : ∀ ev ∈ evs, ev.From τ)
    {l : LayerId} {a b : NodeId} (he : MergeEv.rmEdge l a b ∈ evs) (ha : σ0.key? a = some (.static l)) (hb : σ0.key? b = some (.static l))
    {e : EdgeInfo} (h : (σ0.merged P evs).edges.find? (EdgeKey.of a b) = some e) :
    ∃ ev ∈ evs, ∃ s t w, ev.offers = some (s, t, w) ∧ EdgeKey.of a b = EdgeKey.of s t ∧ e = ⟨s, t, w⟩ := by
  obtain ⟨A, B, rfl⟩ := List.append_of_mem he
  obtain ⟨g1, d1, d2⟩ := hd.split
  have hm1 := hm.run d1 (fun ev hev => hfrom ev (List.mem_append_left _ hev))
  obtain ⟨g2, dd, -, d3⟩ := d2.split_cons
  rw [Spec.merged_append, Spec.merged_cons] at h
  rcases merged_origin d3.fits h with h1 | ⟨ev, hev, h1⟩
  · exfalso
    generalize σ0.merged P A = σ at *
    rw [plan_rmEdge] at h1
    split at h1
    · simp only [Spec.after_cons, Spec.after_nil, Spec.step, Spec.ans, Spec.removeEdge] at h1
      split at h1
      · simp [Spec.eraseEdge] at h1
      · rename_i hh
        exact hh (OMap.contains_eq_true.2 ⟨e, h1⟩)
    · rename_i hk
      have hq : σ.hasEdge a b = true := OMap.contains_eq_true.2 ⟨e, h1⟩
      obtain ⟨-, hs, ht⟩ := hm1.w.hasEdge_nodes hq
      obtain ⟨ka, hka⟩ := Spec.key_of_contains hs
      obtain ⟨kb, hkb⟩ := Spec.key_of_contains ht
      refine hk ⟨?_, ?_⟩
      · rcases hm1.keys a ka hka with h2 | ⟨h2, -⟩
        · rw [hka, ← h2, ha]
        · rw [ha] at h2; cases h2
      · rcases hm1.keys b kb hkb with h2 | ⟨h2, -⟩
        · rw [hkb, ← h2, hb]
        · rw [hb] at h2; cases h2
  · exact ⟨ev, List.mem_append_right _ (List.mem_cons_of_mem _ hev), h1⟩

/-- Keys after a run without node iterations. -/
theorem merged_key {evs : List MergeEv} (hf : FitsAll P σ evs) (h : ∀ ev ∈ evs, ev.node? = none) (n : NodeId) :
    (σ.merged P evs).nodes.find? n = σ.nodes.find? n :=
  merged_kept hf (fun ev hev => by rw [h ev hev]; exact nofun)

/-- The iterations before and after the edges between layers. -/
theorem mergeEvs_phases (σ0 : Spec) (cfg : MergeConfig) (o : Graph) : ∃ M I, mergeEvs σ0 cfg o = M ++ I ∧
    (∀ ev ∈ M, ∀ s t a, ev ≠ .inter s t a) ∧ ∀ ev ∈ I, ∃ s t a, ev = .inter s t a := by
  refine ⟨o.dynEntries.flatMap dynEvs ++ o.layers.toList.flatMap (staticEvs? σ0 cfg), interEvs cfg o.inter.edges ++ interEvs cfg o.dynInter.edges,
    by simp [mergeEvs], ?_, ?_⟩
  · intro ev hev s t a e
    subst e
    rcases List.mem_append.1 hev with h | h
    · obtain ⟨⟨⟨l, p⟩, d⟩, -, h2⟩ := List.mem_flatMap.1 h
      simp only [dynEvs, List.mem_cons, List.mem_append, reduceCtorEq, false_or] at h2
      rcases h2 with h2 | h2
      · obtain ⟨_, _, _, _, _, _, _, e⟩ := dynNodeEvs_node h2; cases e
      · obtain ⟨_, _, _, _, _, e⟩ := edgeEvs_mem.1 h2; cases e
    · obtain ⟨⟨l, x⟩, -, h2⟩ := List.mem_flatMap.1 h
      unfold staticEvs? at h2
      split at h2
      · unfold staticEvs at h2
        simp only [List.mem_append, List.mem_map, List.mem_filterMap, Option.map_eq_some_iff, reduceCtorEq, and_false, exists_false, false_or] at h2
        obtain ⟨_, _, _, _, _, e⟩ := edgeEvs_mem.1 h2; cases e
      · cases h2
  · intro ev hev
    rcases List.mem_append.1 hev with h | h
    all_goals
      obtain ⟨_, _, _, _, _, rfl⟩ := interEvs_mem.1 h
      exact ⟨_, _, _, rfl⟩

/-- An edge of the receiver that nothing removes or replaces is kept. -/
theorem merged_keeps (hd : Did P g σ0 (mergeEvs σ0 cfg o) g') (hm : MInv P σ0 τ g σ0) (hfrom : ∀ ev ∈ mergeEvs σ0 cfg o, ev.From τ)
    (hw0 : SWF σ0) {q : EdgeKey} {e : EdgeInfo} (h : σ0.edges.find? q = some e)
    (h1 : ∀ l n, MergeEv.rmNode l n ∈ mergeEvs σ0 cfg o → q.has n = false)
    (h2 : ∀ l a b, MergeEv.rmEdge l a b ∈ mergeEvs σ0 cfg o → q = EdgeKey.of a b → σ0.key? a = some (.static l) → σ0.key? b ≠ some (.static l))
    (h3 : P.cfg.enforceParent = true → ∀ s t a ks kt, MergeEv.inter s t a ∈ mergeEvs σ0 cfg o → s ≠ t → EdgeKey.of s t ≠ q →
      (σ0.merged P (mergeEvs σ0 cfg o)).key? s = some ks → (σ0.merged P (mergeEvs σ0 cfg o)).key? t = some kt →
      σ0.isParentEdge (if kt.layer < ks.layer then t else s) q = false) :
    (σ0.merged P (mergeEvs σ0 cfg o)).edges.find? q = some e := by
  obtain ⟨M, I, hMI, hM, hI⟩ := mergeEvs_phases σ0 cfg o
  generalize mergeEvs σ0 cfg o = evs at *
  subst hMI
  obtain ⟨g1, d1, d2⟩ := hd.split
  have hm1 := hm.run d1 (fun ev hev => hfrom ev (List.mem_append_left _ hev))
  obtain ⟨hq, -, hqs, hqt⟩ := hw0.edge q e h
  -- keys of the ends
  have hend : ∀ n, q.has n = true → ∃ k, σ0.key? n = some k := by
    intro n hn
    rcases EdgeKey.ends hq hn with rfl | rfl
    · exact Spec.key_of_contains hqs
    · exact Spec.key_of_contains hqt
  have hrest : ∀ {g σ}, MInv P σ0 τ g σ → ∀ n k, q.has n = true → σ.key? n = some k → σ0.key? n = some k := by
    intro g σ hm n k hn hk
    rcases hm.keys n k hk with h4 | ⟨h4, -⟩
    · exact h4
    · obtain ⟨k', h5⟩ := hend n hn
      rw [h5] at h4; cases h4
  have hk1 : (σ0.merged P M).edges.find? q = some e := by
    refine d1.keeps hm (fun ev hev => hfrom ev (List.mem_append_left _ hev)) h ?_
    intro ev hev g σ hmi hqe hkill
    cases ev with
    | rmNode l n =>
      have := h1 l n (List.mem_append_left _ hev)
      rw [show q.has n = true from hkill] at this
      cases this
    | rmEdge l a b =>
      obtain ⟨k1, k2, k3⟩ := hkill
      refine h2 l a b (List.mem_append_left _ hev) k1 (hrest hmi a _ ?_ k2) (hrest hmi b _ ?_ k3)
      · rw [k1]; exact EdgeKey.has_of_left a b
      · rw [k1]; exact EdgeKey.has_of_right a b
    | inter s t a => exact hM _ hev s t a rfl
    | create => cases hkill
    | dynNode => cases hkill
    | node => cases hkill
    | edge => cases hkill
  rw [Spec.merged_append] at h3 ⊢
  generalize σ0.merged P M = σ1 at *
  have hno : ∀ ev ∈ I, ev.node? = none := by
    intro ev hev
    obtain ⟨s, t, a, rfl⟩ := hI ev hev
    rfl
  have hkeys := merged_key d2.fits hno
  have := d2.induct (fun g σ => (MInv P σ0 τ g σ ∧ σ.edges.find? q = some e) ∧ ∀ n, σ.nodes.find? n = σ1.nodes.find? n) ⟨⟨hm1, hk1⟩, fun _ => rfl⟩ ?_
  · exact this.1.2
  · rintro g σ ev g' hev ⟨⟨hmi, hqe⟩, hn⟩ hdo hf
    refine ⟨⟨hmi.step hdo hf (hfrom ev (List.mem_append_right _ hev)), ?_⟩, ?_⟩
    · refine plan_edges_keep ev hf hqe ?_
      obtain ⟨s, t, a, rfl⟩ := hI ev hev
      rintro ⟨k1, k2, k3, ks, kt, k4, k5, k6⟩
      have hs : (σ1.merged P I).key? s = some ks := by rw [Spec.key?, hkeys, ← hn]; exact k4
      have ht : (σ1.merged P I).key? t = some kt := by rw [Spec.key?, hkeys, ← hn]; exact k5
      have hne : EdgeKey.of s t ≠ q := by
        rintro rfl
        have : σ.hasEdge s t = true := OMap.contains_eq_true.2 ⟨e, hqe⟩
        rw [k2] at this; cases this
      have := h3 k1 s t a ks kt (List.mem_append_right _ hev) k3 hne hs ht
      generalize (if kt.layer < ks.layer then t else s) = c at *
      unfold Spec.isParentEdge at this k6
      rw [Bool.and_eq_true] at k6
      obtain ⟨k7, k8⟩ := k6
      have ho : q.has (q.other c) = true := by
        rcases EdgeKey.ends hq k7 with rfl | rfl
        · rw [hq, EdgeKey.other_of_left]; exact EdgeKey.has_of_right _ _
        · rw [hq, EdgeKey.of_comm, EdgeKey.other_of_left]; exact EdgeKey.has_of_right _ _
      cases hc : σ.key? c with
      | none => rw [hc] at k8; cases k8
      | some kc =>
        cases hoc : σ.key? (q.other c) with
        | none => rw [hc, hoc] at k8; cases k8
        | some ko =>
          rw [hc, hoc] at k8
          rw [k7, hrest hmi c kc k7 hc, hrest hmi _ ko ho hoc] at this
          dsimp only at k8
          simp only [k8] at this
          cases this
    · intro n
      rw [plan_nodes ev hf, ptFx_other (by rw [hno ev hev]; exact nofun)]
      exact hn n

end
end Verif
