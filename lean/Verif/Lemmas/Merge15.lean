import Verif.Lemmas.Merge14
import Verif.Spec.Merge
import Verif.Props.Removal
/-! # `mergeGraph` in terms of observations -/

namespace Verif

section
variable {cfg : MergeConfig} {g o g' : Graph} {σ σ0 τ : Spec} {P : MergePar}

theorem find?_forget {K S : Type} [DecidableEq K] [OKey K] [DecidableEq S] (clear : Bool) (m : OMap K S) (d : S) (k : K) :
    (if clear then m.filter (fun _ s => s ≠ d) else m).find? k = if clear = true ∧ m.find? k = some d then none else m.find? k := by
  cases clear with
  | false => simp
  | true =>
    simp only [if_true, OMap.find?_filter, true_and]
    cases h : m.find? k with
    | none => rfl
    | some s =>
      by_cases hs : s = d
      · subst hs; simp [Option.filter]
      · simp [Option.filter, hs]

/-- Reading the change logs of the layers does not change what the graph stores. -/
theorem R.reported (h : R o τ) {ol : OMap LayerId Layer} {c : LayerId → Bool} {clear : Bool}
    (hol : ∀ l, ol.find? l = if c l then (o.layers.find? l).map (Layer.reported clear) else o.layers.find? l) : R { o with layers := ol } τ := by
  -- layer by layer
  have hlay : ∀ k b', ({ o with layers := ol } : Graph).layerAt? k = some b' →
      ∃ b, o.layerAt? k = some b ∧ (b' = b ∨ ∃ x, b = .static x ∧ b' = .static (x.reported clear)) := by
    intro k b' hb'
    cases k with
    | static l =>
      simp only [Graph.layerAt?, Option.map_eq_some_iff] at hb' ⊢
      obtain ⟨x, hx, rfl⟩ := hb'
      rw [hol] at hx
      split at hx
      · obtain ⟨y, hy, rfl⟩ := Option.map_eq_some_iff.1 hx
        exact ⟨.static y, ⟨y, hy, rfl⟩, .inr ⟨y, rfl, rfl⟩⟩
      · exact ⟨_, ⟨x, hx, rfl⟩, .inl rfl⟩
    | dyn l p => exact ⟨b', hb', .inl rfl⟩
  have hnone : ∀ k, ({ o with layers := ol } : Graph).layerAt? k = none → o.layerAt? k = none := by
    intro k hk
    cases k with
    | static l =>
      simp only [Graph.layerAt?, Option.map_eq_none_iff] at hk ⊢
      rw [hol] at hk
      split at hk
      · simpa using hk
      · exact hk
    | dyn l p => exact hk
  have hnode : ∀ k n, ({ o with layers := ol } : Graph).view.node k n = o.view.node k n := by
    intro k n
    simp only [Graph.view]
    cases hk : ({ o with layers := ol } : Graph).layerAt? k with
    | none => rw [hnone k hk]
    | some b' =>
      obtain ⟨b, hb, rfl | ⟨x, rfl, rfl⟩⟩ := hlay k b' hk <;> (rw [hb]; try rfl)
  have hinfo : ∀ k, ({ o with layers := ol } : Graph).view.info k = o.view.info k := by
    intro k
    simp only [Graph.view]
    cases hk : ({ o with layers := ol } : Graph).layerAt? k with
    | none => rw [hnone k hk]
    | some b' =>
      obtain ⟨b, hb, rfl | ⟨x, rfl, rfl⟩⟩ := hlay k b' hk <;> (rw [hb]; try rfl)
  have h' : RV o.view τ := h
  have h1 := h'.layerIds
  have h2 := h'.mesh
  have h3 := h'.lookup
  refine ⟨h1, h2, h3, ?_, ?_, ?_, ?_, ?_⟩
  · intro k n; rw [hnode]; exact RV.node h k n
  · intro k n
    rw [hnode, ← RV.live h k n]
    simp only [Graph.view]
    cases hk : ({ o with layers := ol } : Graph).layerAt? k with
    | none => rw [hnone k hk]
    | some b' =>
      obtain ⟨b, hb, rfl | ⟨x, rfl, rfl⟩⟩ := hlay k b' hk
      · rw [hb]
      · rw [hb]
        simp only [Option.bind_some, BaseLayer.nst]
        show NodeStatus.live ((if clear then x.status.filter (fun _ s => s ≠ .deleted) else x.status).find? n) = _
        rw [find?_forget]
        split
        · rename_i hh; rw [hh.2]; rfl
        · rfl
  · intro c'
    have hec := RV.ec h c'
    cases c' with
    | across b => cases b <;> exact hec
    | within k =>
      have hex : ∃ st, ({ o with layers := ol } : Graph).view.ec (.within k) = { o.view.ec (.within k) with status := st } ∧
          ∀ key, EdgeStatus.live (st.find? key) = EdgeStatus.live ((o.view.ec (.within k)).status.find? key) := by
        simp only [Graph.view, Graph.ecAt?]
        cases hk : ({ o with layers := ol } : Graph).layerAt? k with
        | none => rw [hnone k hk]; exact ⟨_, rfl, fun _ => rfl⟩
        | some b' =>
          obtain ⟨b, hb, rfl | ⟨x, rfl, rfl⟩⟩ := hlay k b' hk
          · rw [hb]; exact ⟨_, rfl, fun _ => rfl⟩
          · rw [hb]
            refine ⟨if clear then x.edges.status.filter (fun _ s => s ≠ .deleted) else x.edges.status, rfl, ?_⟩
            intro key
            rw [find?_forget]
            split
            · rename_i hh
              simp only [Option.map_some, Option.getD_some, BaseLayer.ec]
              rw [hh.2]; rfl
            · rfl
      obtain ⟨st, e1, e2⟩ := hex
      rw [e1]
      exact ⟨hec.edges, fun key => (e2 key).trans (hec.status key), hec.stale⟩
  · intro k; rw [hinfo]; exact RV.has h k
  · intro k m hm; rw [hinfo] at hm; exact RV.info h k m hm

/-- the conditions on trajectories -/
theorem Graph.Mergeable.traj (h0 : R g σ0) (hw0 : SWF σ0) (ht0 : σ0.Tops) (ho : R o τ) (hto : τ.Tops) (hM : g.Mergeable o cfg)
    {l : LayerId} {p : Prefix} (hl : o.hasDynLayer l p = true) : Traj σ0 τ l p := by
  -- what the slots of a trajectory without gaps hold
  have slots : ∀ {g : Graph} {σ : Spec} {d : DynLayer}, R g σ → σ.Tops → g.dynLayer? l p = some d → none ∉ d.nodes →
      d.nodes.length = (σ.dynInfo l p).top ∧ d.next = (σ.dynInfo l p).next ∧ (∀ t, d.times.contains t = σ.hasStamp (.dyn l p) t) ∧
      ∀ i, i < (σ.dynInfo l p).top → ∃ x, σ.nodes.find? (p.makeId i) = some x ∧ x.key = .dyn l p ∧
        d.nodes[i]? = some (some (σ.mkNode (p.makeId i) x)) := by
    intro g σ d hr ht hd hno
    have hb : g.layerAt? (.dyn l p) = some (.dyn d) := by simp [Graph.layerAt?, hd]
    obtain ⟨i1, i2, i3, i4, i6, i5⟩ := RV.info hr (.dyn l p) (BaseLayer.info (.dyn d)) (by simp [Graph.view, hb])
    simp only [BaseLayer.info] at i1 i2 i3 i4 i5 i6
    refine ⟨i4, i3, i5, ?_⟩
    intro i hi
    have hlt : i < d.nodes.length := by omega
    have hsm := ht l p
    have hx : d.nodes[i]? = some d.nodes[i] := List.getElem?_eq_getElem hlt
    cases hy : d.nodes[i] with
    | none => exact (hno (hy ▸ List.getElem_mem hlt)).elim
    | some x =>
      rw [hy] at hx
      have h1 : g.view.node (.dyn l p) (p.makeId i) = some x := by
        rw [Graph.view_node_of_layerAt? hb]
        simp [BaseLayer.nd, i2, Prefix.isMatch_makeId p (show i < 2 ^ 32 by omega), Prefix.index_makeId p p (show i < 2 ^ 32 by omega), hx]
      rw [RV.node hr] at h1
      unfold Spec.nodeRec at h1
      obtain ⟨j, hj, h2⟩ := Option.bind_eq_some_iff.1 h1
      split at h2
      · rename_i hk
        cases h2
        exact ⟨j, hj, hk, hx⟩
      · cases h2
  obtain ⟨e, he⟩ := Option.isSome_iff_exists.1 hl
  obtain ⟨o1, o2, o3, o4⟩ := slots ho hto he (hM.other l p e he)
  cases hg : g.dynLayer? l p with
  | none =>
    have hno : σ0.dyn.find? (l, p) = none := by
      have := h0.dyn_layer l p
      rw [Graph.hasDynLayer, hg] at this
      exact OMap.contains_eq_false.1 this.symm
    have hinfo : σ0.dynInfo l p = {} := by unfold Spec.dynInfo; rw [hno]; rfl
    refine ⟨by rw [hinfo], ?_, ?_, ?_⟩
    · intro i hi
      rw [hinfo] at hi
      exact absurd hi (Nat.not_lt_zero i)
    · intro i hi
      obtain ⟨x, h1, h2, -⟩ := o4 i hi
      rw [Spec.key?_eq h1, h2]
    · intro i x t _ _ _ _
      cases hs : σ0.hasStamp (.dyn l p) t with
      | false => rfl
      | true =>
        obtain ⟨n, y, h1, h2, -⟩ := Spec.hasStamp_iff.1 hs
        have := (hw0.node n y h1).1
        rw [h2] at this
        have this : σ0.dyn.contains (l, p) = true := this
        rw [OMap.contains_eq_false.2 hno] at this
        cases this
  | some d =>
    obtain ⟨m1, m2⟩ := hM.mine l p d hl hg
    obtain ⟨d1, d2, d3, d4⟩ := slots h0 ht0 hg m1
    refine ⟨by rw [← d2, m2, d1], ?_, ?_, ?_⟩
    · intro i hi
      obtain ⟨x, h1, h2, -⟩ := d4 i hi
      rw [Spec.key?_eq h1, h2]
    · intro i hi
      obtain ⟨x, h1, h2, -⟩ := o4 i hi
      rw [Spec.key?_eq h1, h2]
    · intro i x t hlo hhi hx hst
      obtain ⟨y, h1, h2, h3⟩ := o4 i hhi
      rw [hx] at h1
      cases h1
      rw [← d3]
      exact hM.fresh l p d e i _ t hg he (by omega) h3 hst

theorem Graph.Mergeable.removable (h0 : R g σ0) (hw0 : SWF σ0) (ho : R o τ) (hM : g.Mergeable o cfg) : Removable σ0 τ o := by
  intro l x n hl hx hn
  have hl' : g.hasLayer l = true := (h0.static_layer l).trans hl
  obtain ⟨h1, h2, h3⟩ := hM.removed l n hl' ⟨x, hx, hn⟩
  refine ⟨?_, ?_, ?_⟩
  · rw [ho.hasNode, Spec.contains_of_key?] at h1
    simpa using h1
  · rw [h0.getLayerForNode] at h2; exact h2
  · exact h0.crossFree hw0 h3

end
end Verif
