import Verif.Model.Views
import Verif.Spec.Search
import Verif.Lemmas.Search
import Verif.Refine.Run
import Verif.Props.GraphIO
/-! # C46: collecting the nodes of a layer below a node -/

namespace Verif

/-- `b` is among the children of `a`. -/
def Graph.HasChild (g : Graph) (a b : NodeId) : Prop := ∃ p s c, g.adjObs a = some (p, s, c) ∧ c.contains b = true
/-- `b` is below `a`: a child, a child of a child, and so on. -/
def Graph.Descends (g : Graph) (a b : NodeId) : Prop := ∃ k, Walk g.HasChild (k + 1) a b

theorem Walk.head {adj : NodeId → NodeId → Prop} {k : Nat} {a c : NodeId} (h : Walk adj (k + 1) a c) : ∃ b, adj a b ∧ Walk adj k b c := by
  induction k generalizing c with
  | zero =>
    cases h with
    | snoc h1 h2 => cases h1; exact ⟨c, h2, .nil c⟩
  | succ k ih =>
    cases h with
    | snoc h1 h2 =>
      obtain ⟨b, hb, hw⟩ := ih h1
      exact ⟨b, hb, .snoc hw h2⟩

theorem Walk.cons {adj : NodeId → NodeId → Prop} {k : Nat} {a b c : NodeId} (h : adj a b) (h' : Walk adj k b c) : Walk adj (k + 1) a c := by
  have := (Walk.snoc (.nil a) h).trans h'
  rwa [show 0 + 1 + k = k + 1 by omega] at this

/-- With unique predecessors, two walks to the same node lie on a line. -/
theorem Walk.comparable {adj : NodeId → NodeId → Prop} (hu : ∀ a b x, adj a x → adj b x → a = b) {i j : Nat} {a b x : NodeId}
    (h : Walk adj i a x) (h' : Walk adj j b x) : (∃ k, Walk adj k a b) ∨ ∃ k, Walk adj k b a := by
  induction i generalizing j x with
  | zero => cases h; exact .inr ⟨_, h'⟩
  | succ i ih =>
    cases j with
    | zero => cases h'; exact .inl ⟨_, h⟩
    | succ j =>
      cases h with
      | snoc h1 h2 =>
        cases h' with
        | snoc h3 h4 =>
          have := hu _ _ _ h2 h4
          subst this
          exact ih h1 h3

/-- What the traversal relies on. -/
structure Graph.Tiered (g : Graph) : Prop where
  find : ∀ n, (g.findNode n = .ok none ∧ g.getLayerForNode n = none) ∨
    ∃ x kn, g.findNode n = .ok (some x) ∧ g.getLayerForNode n = some kn ∧ x.layer = kn.layer ∧
      ∀ c, x.children.contains c = true → ∃ kc, g.getLayerForNode c = some kc ∧ kc.layer < kn.layer

theorem Reached.tiered {ids : List LayerId} {ops : List Op} {g : Graph} (h : Reached ids ops g) : g.Tiered := by
  obtain ⟨hr, hw⟩ := h.rep
  refine ⟨fun n => ?_⟩
  rw [hr.findNode hw, hr.getLayerForNode]
  cases hn : ((Spec.init ids).after ops).nodes.find? n with
  | none => left; simp [Spec.key?, hn]
  | some i =>
    right
    refine ⟨_, i.key, rfl, by simp [Spec.key?, hn], rfl, ?_⟩
    intro c hc
    simp only [Spec.mkNode, Spec.children, Spec.contains_nbrs, Bool.and_eq_true, Option.any_eq_true, decide_eq_true_eq] at hc
    obtain ⟨⟨kc, h1, h2⟩, _⟩ := hc
    exact ⟨kc, by rw [hr.getLayerForNode]; exact h1, h2⟩

namespace Graph
variable {g : Graph}

theorem hasChild_iff {n c : NodeId} {x : Node} (hx : g.findNode n = .ok (some x)) : g.HasChild n c ↔ x.children.contains c = true := by
  unfold HasChild adjObs
  rw [hx]
  constructor
  · rintro ⟨p, s, c', h1, h2⟩; cases h1; exact h2
  · intro h; exact ⟨_, _, _, rfl, h⟩

theorem Tiered.lower (h : g.Tiered) {a b : NodeId} (hc : g.HasChild a b) :
    ∃ ka kb, g.getLayerForNode a = some ka ∧ g.getLayerForNode b = some kb ∧ kb.layer < ka.layer := by
  rcases h.find a with ⟨h1, h2⟩ | ⟨x, kn, h1, h2, _, h4⟩
  · obtain ⟨p, s, c, h3, _⟩ := hc
    unfold adjObs at h3
    rw [h1] at h3; cases h3
  · obtain ⟨kb, h5, h6⟩ := h4 b ((hasChild_iff h1).1 hc)
    exact ⟨kn, kb, h2, h5, h6⟩

theorem Tiered.walk_lower (h : g.Tiered) {k : Nat} {a b : NodeId} (hc : Walk g.HasChild k a b) {ka kb : LayerKey}
    (ha : g.getLayerForNode a = some ka) (hb : g.getLayerForNode b = some kb) : kb.layer.toNat + k ≤ ka.layer.toNat := by
  induction k generalizing b kb with
  | zero => cases hc; rw [ha] at hb; cases hb; omega
  | succ k ih =>
    cases hc with
    | snoc h1 h2 =>
      obtain ⟨k1, k2, h3, h4, h5⟩ := h.lower h2
      rw [hb] at h4; cases h4
      have := ih h1 h3
      rw [UInt64.lt_iff_toNat_lt] at h5
      omega

/-- The loop over the children. -/
theorem children_spec (k : LayerKey) (fuel : Nat) (L : List NodeId) (hl : ∀ c ∈ L, ∃ kc, g.getLayerForNode c = some kc)
    (hr : ∀ c ∈ L, ∀ kc, g.getLayerForNode c = some kc → kc ≠ k → ∃ out, g.ancestorsOfLayer k fuel c = some (.ok out) ∧
      ∀ x, x ∈ out ↔ g.getLayerForNode x = some k ∧ g.Descends c x) :
    ∃ out, g.eachChild k (g.ancestorsOfLayer k fuel) L = some (.ok out) ∧
      ∀ x, x ∈ out ↔ ∃ c ∈ L, (g.getLayerForNode c = some k ∧ x = c) ∨ (g.getLayerForNode c ≠ some k ∧ g.getLayerForNode x = some k ∧ g.Descends c x) := by
  induction L with
  | nil => exact ⟨[], by unfold eachChild; rfl, by simp⟩
  | cons c cs ih =>
    obtain ⟨out', h1, h2⟩ := ih (fun c hc => hl c (List.mem_cons_of_mem _ hc)) (fun c hc => hr c (List.mem_cons_of_mem _ hc))
    obtain ⟨kc, hkc⟩ := hl c (List.mem_cons_self ..)
    by_cases hk : kc = k
    · subst hk
      refine ⟨c :: out', ?_, ?_⟩
      · unfold eachChild
        simp only [hkc, if_true, h1]; rfl
      · intro x
        simp only [List.mem_cons, h2, exists_eq_or_imp, hkc]
        simp
    · obtain ⟨out, h3, h4⟩ := hr c (List.mem_cons_self ..) kc hkc hk
      refine ⟨out ++ out', ?_, ?_⟩
      · unfold eachChild
        simp only [hkc, hk, if_false, h3, h1]
      · intro x
        simp only [List.mem_append, List.mem_cons, h2, exists_eq_or_imp, hkc, h4]
        simp [hk]

theorem ancestors_spec (h : g.Tiered) (k : LayerKey) (hk : k.layer ≠ 0) : ∀ (fuel : Nat) (p : NodeId),
    (∀ kp, g.getLayerForNode p = some kp → kp.layer.toNat < fuel) → 0 < fuel →
    ∃ out, g.ancestorsOfLayer k fuel p = some (.ok out) ∧ ∀ x, x ∈ out ↔ g.getLayerForNode x = some k ∧ g.Descends p x := by
  intro fuel
  induction fuel with
  | zero => intro p _ h0; omega
  | succ fuel ih =>
    intro p hp _
    rcases h.find p with ⟨h1, h2⟩ | ⟨x, kp, h1, h2, h3, h4⟩
    · refine ⟨[], by unfold ancestorsOfLayer; rw [h1], fun x => ?_⟩
      constructor
      · intro h; cases h
      · rintro ⟨_, i, hw⟩
        obtain ⟨b, hb, _⟩ := hw.head
        obtain ⟨ka, _, h5, _⟩ := h.lower hb
        rw [h2] at h5; cases h5
    · have hlow : ∀ y, g.getLayerForNode y = some k → g.Descends p y → k.layer < kp.layer := by
        rintro y hy ⟨i, hw⟩
        have := h.walk_lower hw h2 hy
        rw [UInt64.lt_iff_toNat_lt]; omega
      by_cases hcut : x.layer ≤ cutOff k
      · refine ⟨[], by unfold ancestorsOfLayer; rw [h1]; simp [hcut], fun y => ?_⟩
        constructor
        · intro h; cases h
        · rintro ⟨hy, hd⟩
          exfalso
          have := hlow y hy hd
          rw [h3] at hcut
          unfold cutOff at hcut
          rw [UInt64.lt_iff_toNat_lt] at this
          split at hcut
          · rw [UInt64.le_iff_toNat_le] at hcut
            have h0 : k.layer.toNat ≠ 0 := fun e => hk (UInt64.toNat_inj.1 e)
            have : (1 : UInt64).toNat = 1 := rfl
            omega
          · rw [UInt64.le_iff_toNat_le] at hcut
            have : (0 : UInt64).toNat = 0 := rfl
            omega
      · obtain ⟨out, h5, h6⟩ := children_spec (g := g) k fuel x.children.keys
          (fun c hc => by obtain ⟨kc, h5, _⟩ := h4 c (OMap.mem_keys.1 hc); exact ⟨kc, h5⟩)
          (fun c hc kc hkc _ => by
            obtain ⟨kc', h5, h6⟩ := h4 c (OMap.mem_keys.1 hc)
            have hpf := hp kp h2
            rw [UInt64.lt_iff_toNat_lt] at h6
            refine ih c (fun k' hk' => ?_) (by omega)
            rw [h5] at hk'; cases hk'; omega)
        refine ⟨out, by unfold ancestorsOfLayer; rw [h1]; simp only [hcut, if_false, h5], fun y => ?_⟩
        rw [h6]
        constructor
        · rintro ⟨c, hc, ⟨hkc, rfl⟩ | ⟨_, hy, i, hw⟩⟩
          · exact ⟨hkc, 0, .snoc (.nil _) ((hasChild_iff h1).2 (OMap.mem_keys.1 hc))⟩
          · exact ⟨hy, i + 1, Walk.cons ((hasChild_iff h1).2 (OMap.mem_keys.1 hc)) hw⟩
        · rintro ⟨hy, i, hw⟩
          obtain ⟨c, hc, hw⟩ := hw.head
          refine ⟨c, OMap.mem_keys.2 ((hasChild_iff h1).1 hc), ?_⟩
          cases i with
          | zero => cases hw; exact .inl ⟨hy, rfl⟩
          | succ i =>
            refine .inr ⟨fun hkc => ?_, hy, i, hw⟩
            have := h.walk_lower hw hkc hy
            omega

theorem ancestors_nodup (h : g.Tiered) (hu : ∀ a b x, g.HasChild a x → g.HasChild b x → a = b) (k : LayerKey) (hk : k.layer ≠ 0) :
    ∀ (fuel : Nat) (p : NodeId), (∀ kp, g.getLayerForNode p = some kp → kp.layer.toNat < fuel) → 0 < fuel →
    ∀ out, g.ancestorsOfLayer k fuel p = some (.ok out) → out.Nodup := by
  intro fuel
  induction fuel with
  | zero => intro p _ h0; omega
  | succ fuel ih =>
    intro p hp _ out hout
    unfold ancestorsOfLayer at hout
    rcases h.find p with ⟨h1, h2⟩ | ⟨x, kp, h1, h2, h3, h4⟩
    · rw [h1] at hout; cases hout; exact List.nodup_nil
    · rw [h1] at hout
      simp only at hout
      split at hout
      · cases hout; exact List.nodup_nil
      · have hsub : ∀ c ∈ x.children.keys, g.HasChild p c := fun c hc => (hasChild_iff h1).2 (OMap.mem_keys.1 hc)
        have hnd := OMap.keys_nodup x.children
        have hpf := hp kp h2
        have hfuel : ∀ c ∈ x.children.keys, ∃ kc, g.getLayerForNode c = some kc ∧ kc.layer.toNat < fuel := by
          intro c hc
          obtain ⟨kc, h5, h6⟩ := h4 c (OMap.mem_keys.1 hc)
          rw [UInt64.lt_iff_toNat_lt] at h6
          exact ⟨kc, h5, by omega⟩
        revert hout out
        generalize x.children.keys = L at hsub hnd hfuel
        induction L with
        | nil => intro out hout; unfold eachChild at hout; cases hout; exact List.nodup_nil
        | cons c cs ih2 =>
          intro out hout
          obtain ⟨kc, hkc, hcf⟩ := hfuel c (List.mem_cons_self ..)
          have hf2 : ∀ kp, g.getLayerForNode c = some kp → kp.layer.toNat < fuel := by
            intro k' hk'; rw [hkc] at hk'; cases hk'; exact hcf
          obtain ⟨o2, ho2, hm2⟩ := children_spec (g := g) k fuel cs
            (fun c hc => by obtain ⟨kc, h5, _⟩ := hfuel c (List.mem_cons_of_mem _ hc); exact ⟨kc, h5⟩)
            (fun c hc kc hkc _ => ancestors_spec h k hk fuel c (fun k' hk' => by
              obtain ⟨kc, h5, h6⟩ := hfuel c (List.mem_cons_of_mem _ hc)
              rw [h5] at hk'; cases hk'; exact h6) (by omega))
          have hnd2 := ih2 (fun c hc => hsub c (List.mem_cons_of_mem _ hc)) (List.nodup_cons.1 hnd).2
            (fun c hc => hfuel c (List.mem_cons_of_mem _ hc)) o2 ho2
          have hcmem : ∀ c' ∈ cs, ∀ i j y, Walk g.HasChild i c y → Walk g.HasChild j c' y → False := by
            intro c' hc' i j y hw hw'
            have hne : c ≠ c' := fun e => (List.nodup_cons.1 hnd).1 (e ▸ hc')
            have hup : ∀ a b, g.HasChild p a → g.HasChild p b → a ≠ b → ∀ n, ¬ Walk g.HasChild n a b := by
              intro a b ha hb hab n hw
              cases n with
              | zero => cases hw; exact hab rfl
              | succ n =>
                cases hw with
                | snoc h5 h6 =>
                  have := hu _ _ _ h6 hb
                  subst this
                  obtain ⟨k1, k2, h7, h8, h9⟩ := h.lower ha
                  have := h.walk_lower h5 h8 h7
                  rw [UInt64.lt_iff_toNat_lt] at h9
                  omega
            rcases Walk.comparable hu hw hw' with ⟨n, hn⟩ | ⟨n, hn⟩
            · exact hup c c' (hsub c (List.mem_cons_self ..)) (hsub c' (List.mem_cons_of_mem _ hc')) hne n hn
            · exact hup c' c (hsub c' (List.mem_cons_of_mem _ hc')) (hsub c (List.mem_cons_self ..)) (Ne.symm hne) n hn
          have hin2 : ∀ y ∈ o2, ∃ c' ∈ cs, ∃ j, Walk g.HasChild j c' y := by
            intro y hy
            obtain ⟨c', hc', ⟨_, rfl⟩ | ⟨_, _, j, hw⟩⟩ := (hm2 y).1 hy
            · exact ⟨y, hc', 0, .nil _⟩
            · exact ⟨c', hc', _, hw⟩
          unfold eachChild at hout
          by_cases hkk : kc = k
          · subst hkk
            simp only [hkc, if_true, ho2] at hout
            cases hout
            refine List.nodup_append.2 ⟨by simp, hnd2, ?_⟩
            intro a ha b hb e
            subst e
            simp only [List.mem_singleton] at ha
            subst ha
            obtain ⟨c', hc', j, hw⟩ := hin2 _ hb
            exact hcmem c' hc' 0 j _ (.nil _) hw
          · obtain ⟨o1, ho1, hm1⟩ := ancestors_spec h k hk fuel c hf2 (by omega)
            simp only [hkc, hkk, if_false, ho1, ho2] at hout
            cases hout
            refine List.nodup_append.2 ⟨ih c hf2 (by omega) o1 ho1, hnd2, ?_⟩
            intro a ha b hb e
            subst e
            obtain ⟨_, i, hw1⟩ := (hm1 _).1 ha
            obtain ⟨c', hc', j, hw⟩ := hin2 _ hb
            exact hcmem c' hc' _ j _ hw1 hw

end Graph

/-- **C46.** For a graph built with the API and a layer other than the one with id 0, `getAncestorsOfLayer` ends (its depth is bounded by
the parent's layer id) without fault and hands the callback exactly the nodes of that layer below the given node; each once, if no node
has two parents. -/
theorem C46_descendants {ids : List LayerId} {ops : List Op} {g : Graph} (h : Reached ids ops g) (p : NodeId) (k : LayerKey) (hk : k.layer ≠ 0)
    (fuel : Nat) (hf : 0 < fuel ∧ ∀ kp, g.getLayerForNode p = some kp → kp.layer.toNat < fuel) :
    ∃ out, g.ancestorsOfLayer k fuel p = some (.ok out) ∧ (∀ x, x ∈ out ↔ g.getLayerForNode x = some k ∧ g.Descends p x) ∧
      ((∀ a b x, g.HasChild a x → g.HasChild b x → a = b) → out.Nodup) := by
  obtain ⟨out, h1, h2⟩ := Graph.ancestors_spec h.tiered k hk fuel p hf.2 hf.1
  exact ⟨out, h1, h2, fun hu => Graph.ancestors_nodup h.tiered hu k hk fuel p hf.2 hf.1 out h1⟩

namespace Descend
open Sample

/-- Three layers, and a node with two parents. -/
def ops : List Op :=
  [.emplaceNode 2 10 at0, .emplaceNode 2 11 at0, .emplaceNode 3 20 at0, .emplaceNode 3 21 at0, .emplaceNode 4 30 at0, .emplaceNode 2 12 at0,
   .emplaceDyn 2 pa 100 at0 true, .insertEdge 20 10 none, .insertEdge 21 10 none, .insertEdge 21 11 none, .insertEdge 30 20 none,
   .insertEdge 30 21 none, .insertEdge 20 (a 0) none, .insertEdge 30 12 none]

example : Reached ids ops (after ids ops) ∧ (after ids ops).ancestorsOfLayer (.static 2) 5 30 = some (.ok [12, 10, 10, 11]) ∧
    (after ids ops).ancestorsOfLayer (.dyn 2 pa) 5 30 = some (.ok [a 0]) ∧ (after ids ops).ancestorsOfLayer (.static 3) 5 30 = some (.ok [20, 21]) :=
  ⟨after_reached (by decide) (by decide +kernel), by decide +kernel, by decide +kernel, by decide +kernel⟩

/-- The layer with id 0 is special: children of nodes in the layer with id 1 are missed. -/
theorem C46_layer_zero_missed : ∃ ops g, Reached [0, 1] ops g ∧ g.Descends 5 6 ∧ g.getLayerForNode 6 = some (.static 0) ∧
    ∀ fuel, 0 < fuel → g.ancestorsOfLayer (.static 0) fuel 5 = some (.ok []) := by
  refine ⟨[.emplaceNode 1 5 at0, .emplaceNode 0 6 at0, .insertEdge 5 6 none], _, after_reached (by decide) (by decide +kernel), ?_, by decide +kernel, ?_⟩
  · refine ⟨0, .snoc (.nil _) ?_⟩
    have : ((after [0, 1] [.emplaceNode 1 5 at0, .emplaceNode 0 6 at0, .insertEdge 5 6 none]).adjObs 5).map (·.2.2.contains 6) = some true := by
      decide +kernel
    cases e : (after [0, 1] [.emplaceNode 1 5 at0, .emplaceNode 0 6 at0, .insertEdge 5 6 none]).adjObs 5 with
    | none => rw [e] at this; cases this
    | some x => rw [e] at this; exact ⟨_, _, _, e, Option.some.inj this⟩
  · intro fuel hf
    cases fuel with
    | zero => omega
    | succ n =>
      unfold Graph.ancestorsOfLayer
      have : ∃ x, (after [0, 1] [.emplaceNode 1 5 at0, .emplaceNode 0 6 at0, .insertEdge 5 6 none]).findNode 5 = .ok (some x) ∧ x.layer = 1 := by
        have : (match (after [0, 1] [.emplaceNode 1 5 at0, .emplaceNode 0 6 at0, .insertEdge 5 6 none]).findNode 5 with
          | .ok (some x) => decide (x.layer = 1) | _ => false) = true := by decide +kernel
        split at this
        · rename_i x e; exact ⟨x, e, of_decide_eq_true this⟩
        · cases this
      obtain ⟨x, hx, hl⟩ := this
      rw [hx]
      simp only [hl]
      rfl

/-- With two parents a node is reported twice. -/
theorem C46_reported_per_path : ∃ ids ops g out, Reached ids ops g ∧ g.ancestorsOfLayer (.static 2) 5 30 = some (.ok out) ∧ ¬ out.Nodup :=
  ⟨ids, ops, after ids ops, [12, 10, 10, 11], after_reached (by decide) (by decide +kernel), by decide +kernel, by decide +kernel⟩

end Descend
end Verif
