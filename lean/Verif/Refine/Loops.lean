import Verif.Refine.EdgeOps
/-!
# Sequencing: well-formedness, composing change logs, loops that remove edges
-/

namespace Verif

/-! ## Well-formedness of the abstract operations on edges -/

/-- drop the edges whose key satisfies `P` -/
def Spec.dropEdges (σ : Spec) (P : EdgeKey → Bool) : Spec := { σ with edges := σ.edges.filter (fun k _ => !P k) }

theorem Spec.find?_dropEdges (σ : Spec) (P : EdgeKey → Bool) (key : EdgeKey) :
    (σ.dropEdges P).edges.find? key = if P key then none else σ.edges.find? key := by
  simp only [dropEdges, OMap.find?_filter]
  cases σ.edges.find? key <;> cases P key <;> simp

theorem Spec.contains_dropEdges (σ : Spec) (P : EdgeKey → Bool) (key : EdgeKey) :
    (σ.dropEdges P).edges.contains key = (σ.edges.contains key && !P key) := by
  simp only [OMap.contains, find?_dropEdges]
  cases P key <;> simp

theorem Spec.eraseEdge_of_none {σ : Spec} {key : EdgeKey} (h : σ.edges.contains key = false) : σ.eraseEdge key = σ := by
  simp [eraseEdge, OMap.erase_of_find?_none (OMap.contains_eq_false.1 h)]

theorem Spec.find?_eraseEdge (σ : Spec) (k0 key : EdgeKey) :
    (σ.eraseEdge k0).edges.find? key = if k0 = key then none else σ.edges.find? key := by
  simp [eraseEdge, OMap.find?_erase]

theorem SWF.congr {σ σ' : Spec} (hw : SWF σ) (hn : σ'.nodes = σ.nodes) (hd : σ'.dyn = σ.dyn)
    (hl : σ'.layerIds = σ.layerIds) (hm : ∀ key c, σ'.marks.find? key = some c → σ.marks.find? key = some c)
    (he : ∀ key e, σ'.edges.find? key = some e → ∃ e', σ.edges.find? key = some e' ∧ e'.src = e.src ∧ e'.tgt = e.tgt) : SWF σ' where
  edge key e h := by
    obtain ⟨e', h', h1, h2⟩ := he key e h
    rw [← h1, ← h2, hn]; exact hw.edge key e' h'
  node n i h := by rw [hn] at h; rw [hasKey_congr hd hl]; exact hw.node n i h
  dyn := by rw [hn]; exact hw.dyn
  stamps := by rw [hn]; exact hw.stamps
  marks key c h := hw.marks key c (hm key c h)

theorem SWF.eraseEdge {σ : Spec} (hw : SWF σ) (k : EdgeKey) : SWF (σ.eraseEdge k) := by
  refine hw.congr rfl rfl rfl (fun _ _ h => h) ?_
  intro key e h
  rw [Spec.find?_eraseEdge] at h
  split at h
  · cases h
  · exact ⟨e, h, rfl, rfl⟩

theorem SWF.dropEdges {σ : Spec} (hw : SWF σ) (P : EdgeKey → Bool) : SWF (σ.dropEdges P) := by
  refine hw.congr rfl rfl rfl (fun _ _ h => h) ?_
  intro key e h
  rw [Spec.find?_dropEdges] at h
  split at h
  · cases h
  · exact ⟨e, h, rfl, rfl⟩

theorem SWF.addEdge {σ : Spec} (hw : SWF σ) {s t : NodeId} (hs : σ.nodes.contains s = true)
    (ht : σ.nodes.contains t = true) (hne : s ≠ t) (a : EdgeAttrs) : SWF (σ.addEdge s t a) where
  edge key e h := by
    simp only [Spec.addEdge, OMap.find?_insert] at h
    split at h
    · rename_i e'; cases h; exact ⟨e'.symm, hne, hs, ht⟩
    · exact hw.edge key e h
  node n i h := hw.node n i h
  dyn := hw.dyn
  stamps := hw.stamps
  marks := hw.marks

theorem SWF.insertEdge {σ : Spec} (hw : SWF σ) (s t : NodeId) (info : Option EdgeAttrs) : SWF (σ.insertEdge s t info).1 := by
  simp only [Spec.insertEdge]
  split
  · exact hw
  · split
    · exact hw
    · split
      · exact hw
      · rename_i h1 h2 h3
        simp only [Bool.or_eq_true, Bool.not_eq_true', not_or, Bool.not_eq_false] at h2
        exact hw.addEdge h2.1 h2.2 h1 _

theorem SWF.removeEdge {σ : Spec} (hw : SWF σ) (s t : NodeId) : SWF (σ.removeEdge s t).1 := by
  simp only [Spec.removeEdge]
  split
  · exact hw.eraseEdge _
  · exact hw

/-! ## Composing change logs -/

theorem RV.hasE_eq {v : View} {σ : Spec} (h : RV v σ) (c : Place) (key : EdgeKey) :
    v.hasE c key = (σ.edges.contains key && decide (σ.placeOf key = some c)) := by
  simp only [View.hasE, (h.ec c).edges, Spec.edgeRec, OMap.contains]
  cases σ.edges.find? key with
  | none => simp
  | some e => by_cases e' : σ.placeOf key = some c <;> simp [e']

theorem RV.hasN_eq {v : View} {σ : Spec} (h : RV v σ) (k : LayerKey) (n : NodeId) :
    (v.node k n).isSome = decide (σ.key? n = some k) := by
  by_cases e : σ.key? n = some k
  · obtain ⟨i, hi, rfl⟩ := Spec.exists_of_key? e
    simp [e, h.node, Spec.nodeRec_eq hi]
  · simp only [e, decide_false, h.node, Spec.nodeRec]
    cases hh : σ.nodes.find? n with
    | none => rfl
    | some i =>
      have : i.key ≠ k := fun hk => e (by simp [Spec.key?, hh, hk])
      simp [this]

theorem NLog.trans {gone : NodeStatus} {v v1 v2 : View} (h1 : NLog gone v v1) (h2 : NLog gone v1 v2)
    (hm : ∀ k n, (v.node k n).isSome = (v1.node k n).isSome ∨ (v1.node k n).isSome = (v2.node k n).isSome) :
    NLog gone v v2 := by
  intro k n
  have a := h1 k n; have b := h2 k n
  rcases hm k n with h | h
  · rw [if_pos h] at a; rw [h, ← a]; exact b
  · rw [if_pos h] at b; rw [b, ← h]; exact a

theorem ELog.trans {v v1 v2 : View} (h1 : ELog v v1) (h2 : ELog v1 v2)
    (hm : ∀ c key, v.hasE c key = v1.hasE c key ∨ v1.hasE c key = v2.hasE c key) : ELog v v2 := by
  intro c key
  have a := h1 c key; have b := h2 c key
  rcases hm c key with h | h
  · rw [if_pos h] at a; rw [h, ← a]; exact b
  · rw [if_pos h] at b; rw [b, ← h]; exact a

/-- Two consecutive changes that leave the nodes alone and never touch the same edge twice. -/
theorem Adv.trans {gone : NodeStatus} {v v1 v2 : View} {σ σ1 σ2 : Spec} (h : RV v σ) (a1 : Adv gone v v1 σ1)
    (a2 : Adv gone v1 v2 σ2) (hn1 : ∀ n, σ1.key? n = σ.key? n) (hn2 : ∀ n, σ2.key? n = σ1.key? n)
    (hm : ∀ key, σ.edges.contains key = σ1.edges.contains key ∨ σ1.edges.contains key = σ2.edges.contains key) :
    Adv gone v v2 σ2 := by
  refine ⟨a2.r, a1.nlog.trans a2.nlog ?_, a1.elog.trans a2.elog ?_⟩
  · intro k n; left; rw [h.hasN_eq, a1.r.hasN_eq, hn1]
  · intro c key
    rw [h.hasE_eq, a1.r.hasE_eq, a2.r.hasE_eq]
    rw [Spec.placeOf_congr hn2, Spec.placeOf_congr hn1]
    rcases hm key with h | h <;> simp [h]

/-- A loop whose body removes one (distinct) edge per iteration. -/
theorem fold_erase {α : Type} (f : Graph → α → Res Graph) (κ : α → EdgeKey) (gone : NodeStatus) {σ0 : Spec} (L : List α)
    (hL : L.Pairwise (fun a b => κ a ≠ κ b))
    (step : ∀ (g : Graph) (σ : Spec) (a : α), a ∈ L → R g σ → SWF σ → σ.nodes = σ0.nodes →
      σ.edges.find? (κ a) = σ0.edges.find? (κ a) →
      ∃ g', f g a = .ok g' ∧ Adv gone g.view g'.view (σ.eraseEdge (κ a))) :
    ∀ (g : Graph), R g σ0 → SWF σ0 →
      ∃ g', foldRes f g L = .ok g' ∧ Adv gone g.view g'.view (σ0.dropEdges (fun key => L.any (fun a => κ a == key))) := by
  intro g h hw
  suffices H : ∀ (L' : List α) (g : Graph) (σ : Spec), (∀ a ∈ L', a ∈ L) → L'.Pairwise (fun a b => κ a ≠ κ b) → R g σ →
      SWF σ → σ.nodes = σ0.nodes → (∀ a ∈ L', σ.edges.find? (κ a) = σ0.edges.find? (κ a)) →
      ∃ g', foldRes f g L' = .ok g' ∧ Adv gone g.view g'.view (σ.dropEdges (fun key => L'.any (fun a => κ a == key))) from
    H L g σ0 (fun _ h => h) hL h hw rfl (fun _ _ => rfl)
  intro L'
  induction L' with
  | nil =>
    intro g σ _ _ h hw _ _
    refine ⟨g, rfl, ?_⟩
    have : σ.dropEdges (fun key => ([] : List α).any (fun a => κ a == key)) = σ := by
      apply Spec.ext' <;> try rfl
      apply OMap.ext; intro key; rw [Spec.find?_dropEdges]; simp
    rw [this]
    exact Adv.refl gone h
  | cons a L' ih =>
    intro g σ hsub hp h hw hn he
    obtain ⟨g1, e1, A1⟩ := step g σ a (hsub a (List.mem_cons_self)) h hw hn (he a List.mem_cons_self)
    rw [List.pairwise_cons] at hp
    obtain ⟨g2, e2, A2⟩ := ih g1 (σ.eraseEdge (κ a)) (fun b hb => hsub b (List.mem_cons_of_mem _ hb)) hp.2 A1.r
      (hw.eraseEdge _) hn (fun b hb => by
        rw [Spec.find?_eraseEdge, if_neg (hp.1 b hb)]; exact he b (List.mem_cons_of_mem _ hb))
    refine ⟨g2, by simp [e1, e2], ?_⟩
    have : (σ.eraseEdge (κ a)).dropEdges (fun key => L'.any (fun a => κ a == key)) =
        σ.dropEdges (fun key => (a :: L').any (fun a => κ a == key)) := by
      apply Spec.ext' <;> try rfl
      apply OMap.ext; intro key
      simp only [Spec.find?_dropEdges, Spec.find?_eraseEdge, List.any_cons, Bool.or_eq_true, beq_iff_eq]
      by_cases e : κ a = key <;> simp [e]
    rw [this] at A2
    refine Adv.trans h A1 A2 (fun _ => rfl) (fun _ => rfl) ?_
    intro key
    simp only [OMap.contains, Spec.find?_dropEdges, Spec.find?_eraseEdge, List.any_cons, Bool.or_eq_true, beq_iff_eq]
    by_cases e : κ a = key <;> simp [e]

/-- Relating a loop on one layer to the same loop on the graph. -/
theorem fold_layer {α : Type} (fb : BaseLayer → α → Res BaseLayer) (k : LayerKey)
    (hfit : ∀ b a b', fb b a = .ok b' → b.fits k → b'.fits k) (L : List α) :
    ∀ (g : Graph) (b : BaseLayer), g.layerAt? k = some b → ∀ g',
      foldRes (fun g a => match g.layerAt? k with | none => Res.ub | some b => fb b a >>= fun b' => .ok (g.setLayer k b')) g L = .ok g' →
      ∃ b', foldRes fb b L = .ok b' ∧ g' = g.setLayer k b' ∧ b'.fits k := by
  induction L with
  | nil =>
    intro g b hb g' h
    simp only [foldRes_nil, Res.ok.injEq] at h
    subst h
    exact ⟨b, rfl, (Graph.setLayer_self hb).symm, Graph.fits_of_layerAt? hb⟩
  | cons a L ih =>
    intro g b hb g' h
    simp only [foldRes_cons, hb] at h
    cases h1 : fb b a with
    | throw e => simp [h1] at h
    | ub => simp [h1] at h
    | ok b1 =>
      simp only [h1, Res.bind_ok] at h
      have hf := Graph.fits_of_layerAt? hb
      have hf1 := hfit b a b1 h1 hf
      obtain ⟨b2, e2, e3, f2⟩ := ih (g.setLayer k b1) b1 (by rw [Graph.layerAt?_setLayer' hf1]; simp) g' h
      refine ⟨b2, by simp [h1, e2], ?_, f2⟩
      rw [e3, Graph.setLayer_setLayer hf1 f2]

end Verif
