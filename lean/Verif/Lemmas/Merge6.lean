import Verif.Lemmas.Merge5
/-! # A trajectory, merged -/

namespace Verif

/-- The shift after the first `m` shared nodes: difference of the positions of the last of them. -/
def deltaAt (F : FloatOps) (σ0 τ : Spec) (p : Prefix) (m : Nat) : V3d :=
  if m = 0 then F.zero
  else match σ0.nodes.find? (p.makeId (m - 1)), τ.nodes.find? (p.makeId (m - 1)) with
    | some x, some y => F.sub x.attrs.position y.attrs.position
    | _, _ => F.zero

/-- A trajectory of the receiver and the one of the other graph can be merged: neither has lost a node, and the stamps of the nodes to be
appended are new. -/
structure Traj (σ0 τ : Spec) (l : LayerId) (p : Prefix) : Prop where
  next : (σ0.dynInfo l p).next = (σ0.dynInfo l p).top
  mine : ∀ i, i < (σ0.dynInfo l p).top → σ0.key? (p.makeId i) = some (.dyn l p)
  other : ∀ i, i < (τ.dynInfo l p).top → τ.key? (p.makeId i) = some (.dyn l p)
  fresh : ∀ i x t, (σ0.dynInfo l p).top ≤ i → i < (τ.dynInfo l p).top → τ.nodes.find? (p.makeId i) = some x → x.stamp = some t →
    σ0.hasStamp (.dyn l p) t = false

/-- The trajectory is untouched so far. -/
structure Untouched (σ0 σ : Spec) (l : LayerId) (p : Prefix) : Prop where
  info : σ.dynInfo l p = σ0.dynInfo l p
  nodes : ∀ n i, i.key = .dyn l p → (σ.nodes.find? n = some i ↔ σ0.nodes.find? n = some i)

/-- After the first `i` nodes of the other trajectory. -/
structure TrajInv (σ0 τ : Spec) (l : LayerId) (p : Prefix) (i : Nat) (σ : Spec) : Prop where
  next : (σ.dynInfo l p).next = max (σ0.dynInfo l p).top i
  top : (σ.dynInfo l p).top = max (σ0.dynInfo l p).top i
  alive : ∀ j, j < max (σ0.dynInfo l p).top i → σ.key? (p.makeId j) = some (.dyn l p)
  pos : ∀ j, j < (σ0.dynInfo l p).top → ∃ x y, σ.nodes.find? (p.makeId j) = some x ∧ σ0.nodes.find? (p.makeId j) = some y ∧
    x.attrs.position = y.attrs.position
  stamps : ∀ t, σ.hasStamp (.dyn l p) t = true → σ0.hasStamp (.dyn l p) t = true ∨
    ∃ j x, j < i ∧ τ.nodes.find? (p.makeId j) = some x ∧ x.stamp = some t

/-- The iterations over the nodes of a trajectory, from index `i`. -/
def dynNodeEvs (l : LayerId) (p : Prefix) (i : Nat) : List (Option Node) → List MergeEv
  | [] => []
  | some y :: ns =>
    match y.timestamp, y.attrs with
    | some t, some a => .dynNode l p (p.makeId i) t a :: dynNodeEvs l p (i + 1) ns
    | _, _ => dynNodeEvs l p (i + 1) ns
  | none :: ns => dynNodeEvs l p (i + 1) ns

/-- The iterations over an edge table. -/
def edgeEvs (k : LayerKey) (f : NodeId → NodeId) (es : OMap EdgeKey Edge) : List MergeEv :=
  es.toList.filterMap (fun e => e.2.info.map (fun a => .edge k e.2.source e.2.target (f e.2.source) (f e.2.target) a))

section
variable {P : MergePar} {g : Graph} {σ σ0 τ : Spec}

theorem MInv.home (h : MInv P σ0 τ g σ) (hh : ∀ n k k', σ0.key? n = some k → τ.key? n = some k' → k = k') {n : NodeId} {k k' : LayerKey}
    (h1 : σ.key? n = some k) (h2 : τ.key? n = some k') : k = k' := by
  rcases h.keys n k h1 with h3 | ⟨-, h3⟩
  · exact hh n k k' h3 h2
  · rw [h2] at h3; injection h3 with h3; exact h3.symm

theorem Untouched.start (h : Untouched σ0 σ l p) (ht : Traj σ0 τ l p) : TrajInv σ0 τ l p 0 σ := by
  refine ⟨?_, ?_, ?_, ?_, ?_⟩
  · rw [h.info, ht.next, Nat.max_eq_left (Nat.zero_le _)]
  · rw [h.info, Nat.max_eq_left (Nat.zero_le _)]
  · intro j hj
    rw [Nat.max_eq_left (Nat.zero_le _)] at hj
    obtain ⟨x, hx, hxk⟩ := Spec.exists_of_key? (ht.mine j hj)
    rw [Spec.key?_eq ((h.nodes _ x hxk).2 hx), hxk]
  · intro j hj
    obtain ⟨x, hx, hxk⟩ := Spec.exists_of_key? (ht.mine j hj)
    exact ⟨x, x, (h.nodes _ x hxk).2 hx, hx, rfl⟩
  · intro t hs
    obtain ⟨n, i, h1, h2, h3⟩ := Spec.hasStamp_iff.1 hs
    exact .inl (Spec.hasStamp_iff.2 ⟨n, i, (h.nodes n i h2).1 h1, h2, h3⟩)

/-- The node loop of `DynamicSceneGraphLayer::mergeLayer`. -/
theorem MInv.dynNodes {l : LayerId} {p : Prefix} (hp : p.plain = true) (hl : l ≠ UNKNOWN_LAYER)
    (hh : ∀ n k k', σ0.key? n = some k → τ.key? n = some k' → k = k') (hwτ : SWF τ) (ht : Traj σ0 τ l p)
    (hP : P.delta l p = deltaAt P.F σ0 τ p (σ0.dynInfo l p).top)
    (ns : List (Option Node)) (i : Nat) (hsmall : i + ns.length ≤ 2 ^ 32)
    (hns : ∀ j y, ns[j]? = some y → ∃ x, τ.nodes.find? (p.makeId (i + j)) = some x ∧ x.key = .dyn l p ∧ y = some (τ.mkNode (p.makeId (i + j)) x))
    (htop : i + ns.length = (τ.dynInfo l p).top)
    {d : DynLayer} {lk : OMap NodeId LayerKey} (h : MInv P σ0 τ (g.withDyn l p d lk) σ) (hi : TrajInv σ0 τ l p i σ) :
    ∃ d' lk' D, foldRes (DynLayer.mergeNodeStep P.F P.cfg) (d, lk, deltaAt P.F σ0 τ p (min i (σ0.dynInfo l p).top)) ((List.range' i ns.length).zip ns) = .ok (d', lk', D) ∧
      Did P (g.withDyn l p d lk) σ (dynNodeEvs l p i ns) (g.withDyn l p d' lk') ∧
      MInv P σ0 τ (g.withDyn l p d' lk') (σ.merged P (dynNodeEvs l p i ns)) := by
  induction ns generalizing i d lk σ with
  | nil => exact ⟨d, lk, _, rfl, .nil h.r h.w, h⟩
  | cons y ns ih =>
    simp only [List.length_cons] at hsmall htop
    obtain ⟨x, hx, hxk, rfl⟩ := hns 0 y rfl
    simp only [Nat.add_zero] at hx
    obtain ⟨t, hxt⟩ := Option.isSome_iff_exists.1 (hwτ.dyn _ x l p hx hxk).2.2
    have hi32 : i < 2 ^ 32 := by omega
    have hev : dynNodeEvs l p i (some (τ.mkNode (p.makeId (i + 0)) x) :: ns) = .dynNode l p (p.makeId i) t x.attrs :: dynNodeEvs l p (i + 1) ns := by
      simp [dynNodeEvs, Spec.mkNode, hxt]
    have hb := Graph.withDyn_at g l p d lk
    have hinf := h.r.info (.dyn l p) (BaseLayer.info (.dyn d)) (by simp [Graph.view, hb])
    obtain ⟨i1, i2, i3, i4, i6, i5⟩ := hinf
    simp only [BaseLayer.info] at i1 i2 i3 i4 i5 i6
    have hfreshkey : i = (σ.dynInfo l p).top → σ.key? (p.makeId i) = none := by
      intro hit
      cases hk : σ.key? (p.makeId i) with
      | none => rfl
      | some k =>
        exfalso
        have hkk := h.home hh hk (Spec.key?_eq hx)
        rw [hxk] at hkk
        subst hkk
        obtain ⟨z, hz, hzk⟩ := Spec.exists_of_key? hk
        have hrec := RV.node h.r (.dyn l p) (p.makeId i)
        rw [Graph.view_node_of_layerAt? hb, Spec.nodeRec_key hz hzk] at hrec
        obtain ⟨-, hslot⟩ := BaseLayer.nd_dyn_lt hrec
        rw [i2, Prefix.index_makeId p p hi32] at hslot
        have := (List.getElem?_eq_some_iff.1 hslot).1
        omega
    have hfreshst : i = (σ.dynInfo l p).top → σ.hasStamp (.dyn l p) t = false := by
      intro hit
      rw [hi.top] at hit
      cases hs : σ.hasStamp (.dyn l p) t with
      | false => rfl
      | true =>
        exfalso
        rcases hi.stamps t hs with h1 | ⟨j, z, hj, hz, hzt⟩
        · rw [ht.fresh i x t (by omega) (by omega) hx hxt] at h1; cases h1
        · have hzk := ht.other j (by omega)
          rw [Spec.key?_eq hz] at hzk
          have := hwτ.stamps _ _ _ _ l p hz hx (by simpa using hzk) hxk (by rw [hzt, hxt])
          exact Prefix.makeId_ne (by omega) hi32 (by omega) this
    have hdelta : i = (σ.dynInfo l p).top → P.delta l p = deltaAt P.F σ0 τ p (min i (σ0.dynInfo l p).top) := by
      intro hit
      rw [hi.top] at hit
      rw [hP, show min i (σ0.dynInfo l p).top = (σ0.dynInfo l p).top by omega]
    obtain ⟨d', lk', hstep, hdoes⟩ := h.r.mergeDynNode h.w hp hl hi32 (y := τ.mkNode (p.makeId i) x) (a := x.attrs) (t := t) rfl hxt
      (deltaAt P.F σ0 τ p (min i (σ0.dynInfo l p).top)) (by rw [hi.next, hi.top]) (by rw [hi.top]; omega)
      (fun hit => ⟨hfreshkey hit, hfreshst hit, hdelta hit⟩) (fun hlt => hi.alive i (by rw [hi.top] at hlt; exact hlt))
    have hfits : (MergeEv.dynNode l p (p.makeId i) t x.attrs).Fits σ := by
      intro hn
      have hit : i = (σ.dynInfo l p).top := by
        rcases Nat.lt_or_ge i (σ.dynInfo l p).top with h1 | h1
        · have := hi.alive i (by rw [hi.top] at h1; exact h1)
          simp [Spec.key?, hn] at this
        · rw [hi.top] at h1 ⊢; omega
      refine ⟨?_, hfreshst hit⟩
      rw [hi.next, ← hi.top, ← hit]
    have hfrom : (MergeEv.dynNode l p (p.makeId i) t x.attrs).From τ := ⟨x, hx, hxk, hxt, rfl⟩
    have hm1 := h.step hdoes hfits hfrom
    generalize hσ1 : σ.after (plan P σ (.dynNode l p (p.makeId i) t x.attrs)) = σ1 at *
    have hnodes : ∀ m, σ1.nodes.find? m = ptFx P (.dynNode l p (p.makeId i) t x.attrs) m (σ.nodes.find? m) := by
      intro m; rw [← hσ1]; exact plan_nodes _ hfits m
    have hdyn := plan_dyn (P := P) _ hfits
    rw [hσ1] at hdyn
    dsimp only at hdyn
    have hi1 : TrajInv σ0 τ l p (i + 1) σ1 := by
      have hinfo : (σ1.dynInfo l p).next = max (σ0.dynInfo l p).top (i + 1) ∧ (σ1.dynInfo l p).top = max (σ0.dynInfo l p).top (i + 1) := by
        by_cases hn : σ.nodes.find? (p.makeId i) = none
        · rw [if_pos hn] at hdyn
          have hit : i = (σ.dynInfo l p).top := by
            rcases Nat.lt_or_ge i (σ.dynInfo l p).top with h1 | h1
            · have := hi.alive i (by rw [hi.top] at h1; exact h1)
              simp [Spec.key?, hn] at this
            · rw [hi.top] at h1 ⊢; omega
          have hit' := hit
          rw [hi.top] at hit'
          simp only [Spec.dynInfo, hdyn, OMap.find?_insert_self, Option.getD_some]
          simp only [Spec.dynInfo] at hi hit hit'
          have h1 := hi.next
          have h2 := hi.top
          simp only [Spec.dynInfo] at h1 h2
          omega
        · rw [if_neg hn] at hdyn
          have hlt : i < (σ.dynInfo l p).top := by
            rcases Nat.lt_or_ge i (σ.dynInfo l p).top with h1 | h1
            · exact h1
            · have : i = (σ.dynInfo l p).top := by rw [hi.top] at h1 ⊢; omega
              have := hfreshkey this
              simp [Spec.key?] at this
              exact absurd this hn
          have hlt' := hlt
          rw [hi.top] at hlt'
          have e : σ1.dynInfo l p = σ.dynInfo l p := by simp [Spec.dynInfo, hdyn]
          rw [e, hi.next, hi.top]
          omega
      have hkeys : ∀ m k, σ.key? m = some k → σ1.key? m = some k := by
        intro m k hk
        obtain ⟨z, hz, rfl⟩ := Spec.exists_of_key? hk
        obtain ⟨w, hw⟩ : ∃ w, σ1.nodes.find? m = some w := by
          rw [hnodes, hz]
          unfold ptFx
          dsimp only
          split
          · split <;> exact ⟨_, rfl⟩
          · exact ⟨_, rfl⟩
        rw [Spec.key?_eq hw]
        rw [hnodes, hz] at hw
        rw [(ptFx_key hw).1]
      refine ⟨hinfo.1, hinfo.2, ?_, ?_, ?_⟩
      · intro j hj
        by_cases hji : j = i
        · subst hji
          cases hk : σ.key? (p.makeId j) with
          | some k => rw [hkeys _ _ hk, h.home hh hk (Spec.key?_eq hx), hxk]
          | none =>
            have hn : σ.nodes.find? (p.makeId j) = none := by simpa [Spec.key?] using hk
            have := hnodes (p.makeId j)
            rw [hn] at this
            simp only [ptFx, if_true] at this
            rw [Spec.key?_eq this]
        · exact hkeys _ _ (hi.alive j (by omega))
      · intro j hj
        obtain ⟨z, w, hz, hw, hpos⟩ := hi.pos j hj
        by_cases hji : p.makeId i = p.makeId j
        · have := hnodes (p.makeId j)
          rw [hz] at this
          simp only [ptFx, hji, if_true] at this
          cases hu : P.cfg.updateDynamic with
          | true =>
            rw [hu] at this
            exact ⟨_, w, this, hw, by rw [NodeAttrs.position_setPosition]; exact hpos⟩
          | false =>
            rw [hu] at this
            exact ⟨z, w, this, hw, hpos⟩
        · have := hnodes (p.makeId j)
          rw [hz] at this
          simp only [ptFx, if_neg hji] at this
          exact ⟨z, w, this, hw, hpos⟩
      · intro t' hs
        obtain ⟨n, z, h1, h2, h3⟩ := Spec.hasStamp_iff.1 hs
        rw [hnodes] at h1
        cases hn : σ.nodes.find? n with
        | some w =>
          rw [hn] at h1
          obtain ⟨e1, e2⟩ := ptFx_key h1
          rcases hi.stamps t' (Spec.hasStamp_iff.2 ⟨n, w, hn, by rw [← e1]; exact h2, by rw [← e2]; exact h3⟩) with h4 | ⟨j, v, h5, h6⟩
          · exact .inl h4
          · exact .inr ⟨j, v, by omega, h6⟩
        | none =>
          rw [hn] at h1
          unfold ptFx at h1
          dsimp only at h1
          split at h1
          · cases h1
            refine .inr ⟨i, x, by omega, hx, ?_⟩
            rw [hxt]; exact h3
          · cases h1
    have hD : (match σ.nodes.find? (p.makeId i) with | some z => P.F.sub z.attrs.position x.attrs.position | none => deltaAt P.F σ0 τ p (min i (σ0.dynInfo l p).top)) =
        deltaAt P.F σ0 τ p (min (i + 1) (σ0.dynInfo l p).top) := by
      by_cases hlt : i < (σ0.dynInfo l p).top
      · obtain ⟨z, w, hz, hw, hpos⟩ := hi.pos i hlt
        rw [hz]
        dsimp only
        rw [show min (i + 1) (σ0.dynInfo l p).top = i + 1 by omega]
        simp only [deltaAt, Nat.add_eq_zero_iff, Nat.add_sub_cancel, hw, hx]
        rw [if_neg (by omega), hpos]
      · have hn : σ.nodes.find? (p.makeId i) = none := by
          have := hfreshkey (by rw [hi.top]; omega)
          simpa [Spec.key?] using this
        rw [hn]
        dsimp only
        rw [show min (i + 1) (σ0.dynInfo l p).top = min i (σ0.dynInfo l p).top by omega]
    have hstep := hstep.trans (congrArg (fun D => Res.ok (d', lk', D)) hD)
    obtain ⟨d2, lk2, D, e2, did2, m2⟩ := ih (i + 1) (by omega)
      (by
        intro j y hy
        obtain ⟨z, hz⟩ := hns (j + 1) y (by simpa using hy)
        rw [show i + (j + 1) = i + 1 + j by omega] at hz
        exact ⟨z, hz⟩)
      (by omega) hm1 hi1
    refine ⟨d2, lk2, D, ?_, ?_, ?_⟩
    · rw [List.length_cons, List.range'_succ, List.zip_cons_cons, foldRes_cons]
      have : (τ.mkNode (p.makeId (i + 0)) x) = τ.mkNode (p.makeId i) x := by rw [Nat.add_zero]
      rw [this, hstep]
      exact e2
    · rw [hev]
      refine .cons hdoes hfits ?_
      rw [hσ1]; exact did2
    · rw [hev, Spec.merged_cons, hσ1]; exact m2

end
end Verif
