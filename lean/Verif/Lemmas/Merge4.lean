import Verif.Lemmas.Merge3
/-! # One node of a trajectory, merged -/

namespace Verif

/-- `g` with one dynamic layer and the lookup table replaced. -/
def Graph.withDyn (g : Graph) (l : LayerId) (p : Prefix) (d : DynLayer) (lk : OMap NodeId LayerKey) : Graph :=
  { g.setDyn l p d with lookup := lk }

theorem Graph.withDyn_find (g : Graph) (l : LayerId) (p : Prefix) (d : DynLayer) (lk : OMap NodeId LayerKey) :
    (g.withDyn l p d lk).dynLayer? l p = some d := by
  have := Graph.dynLayer?_setDyn g l p d l p
  rw [if_pos ⟨rfl, rfl⟩] at this
  exact this

theorem Graph.withDyn_at (g : Graph) (l : LayerId) (p : Prefix) (d : DynLayer) (lk : OMap NodeId LayerKey) :
    (g.withDyn l p d lk).layerAt? (.dyn l p) = some (.dyn d) := by
  simp [Graph.layerAt?, Graph.withDyn_find]

theorem Graph.withDyn_set (g : Graph) (l : LayerId) (p : Prefix) (d d' : DynLayer) (lk : OMap NodeId LayerKey) :
    (g.withDyn l p d lk).setDyn l p d' = g.withDyn l p d' lk := by
  have := Graph.setLayer_setLayer (g := g) (k := .dyn l p) (b := .dyn d) (b' := .dyn d') trivial trivial
  have e2 : (g.setDyn l p d).setDyn l p d' = g.setDyn l p d' := this
  show { (g.setDyn l p d).setDyn l p d' with lookup := lk } = _
  rw [e2]; rfl

theorem NodeAttrs.position_setPosition (a : NodeAttrs) (q : V3d) : (a.setPosition q).position = q := by
  cases a <;> rfl

section
variable {g : Graph} {σ : Spec} {P : MergePar}

theorem R.mergeDynNode {l : LayerId} {p : Prefix} {d : DynLayer} {lk : OMap NodeId LayerKey} (h : R (g.withDyn l p d lk) σ) (hw : SWF σ)
    (hp : p.plain = true) (hl : l ≠ UNKNOWN_LAYER) {i : Nat} (hi : i < 2 ^ 32) {y : Node} {a : NodeAttrs} {t : Stamp}
    (ha : y.attrs = some a) (ht : y.timestamp = some t) (delta : V3d)
    (hnt : (σ.dynInfo l p).next = (σ.dynInfo l p).top) (hle : i ≤ (σ.dynInfo l p).top)
    (hfresh : i = (σ.dynInfo l p).top → σ.key? (p.makeId i) = none ∧ σ.hasStamp (.dyn l p) t = false ∧ P.delta l p = delta)
    (hold : i < (σ.dynInfo l p).top → σ.key? (p.makeId i) = some (.dyn l p)) :
    ∃ d' lk', DynLayer.mergeNodeStep P.F P.cfg (d, lk, delta) (i, some y) =
        .ok (d', lk', match σ.nodes.find? (p.makeId i) with | some x => P.F.sub x.attrs.position a.position | none => delta) ∧
      Does (g.withDyn l p d lk) σ (plan P σ (.dynNode l p (p.makeId i) t a)) (g.withDyn l p d' lk') := by
  have hb := Graph.withDyn_at g l p d lk
  obtain ⟨i1, i2, i3, i4, i6, i5⟩ := h.info (.dyn l p) (BaseLayer.info (.dyn d)) (by simp [Graph.view, hb])
  simp only [BaseLayer.info] at i1 i2 i3 i4 i5 i6
  have hidx := Prefix.index_makeId p p hi
  have hmatch := Prefix.isMatch_makeId p hi
  rw [plan_dynNode]
  by_cases hlt : i < (σ.dynInfo l p).top
  · obtain ⟨x, hx, hxk⟩ := Spec.exists_of_key? (hold hlt)
    rw [hx]
    have hrec := RV.node h (.dyn l p) (p.makeId i)
    rw [Graph.view_node_of_layerAt? hb, Spec.nodeRec_key hx hxk] at hrec
    obtain ⟨-, hslot⟩ := BaseLayer.nd_dyn_lt hrec
    rw [i2, hidx] at hslot
    have hat : (σ.mkNode (p.makeId i) x).attrs = some x.attrs := rfl
    have hstep : DynLayer.mergeNodeStep P.F P.cfg (d, lk, delta) (i, some y) =
        if P.cfg.updateDynamic then .ok ({ d with nodes := d.nodes.set i (some { σ.mkNode (p.makeId i) x with attrs := some (a.setPosition x.attrs.position) }) }, lk, P.F.sub x.attrs.position a.position)
        else .ok (d, lk, P.F.sub x.attrs.position a.position) := by
      have hlt' : i < d.next := by rw [i3, hnt]; exact hlt
      cases hu : P.cfg.updateDynamic <;>
        simp [DynLayer.mergeNodeStep, hlt', DynLayer.slot, hslot, hat, ha, hu]
    rw [hstep]
    dsimp only
    cases hu : P.cfg.updateDynamic with
    | false => exact ⟨d, lk, rfl, .nil h hw⟩
    | true =>
      refine ⟨_, _, rfl, ?_⟩
      refine .one h hw rfl (out := .bool true) (ans_ok ?_)
      have hptr := Graph.getNodePtr_ok (RV.node_of h hx) (h.kok hw (Spec.key?_eq hx))
      rw [hxk] at hptr
      have hcat : (NodeSymbol.categoryId (p.makeId i)).toNat = i := by
        rw [Prefix.categoryId_of_plain hp hmatch, hidx]
      simp only [Graph.setNodeAttributes, h.lookup', Spec.key?_eq hx, hxk, Graph.modNode, hptr, Res.bind_ok, Res.deref_some,
        Graph.withDyn_find, hcat, Res.pure_eq, Res.ok.injEq, Prod.mk.injEq, and_true]
      rw [Graph.withDyn_set]
  · have hit : i = (σ.dynInfo l p).top := by omega
    obtain ⟨hk, hst, hdel⟩ := hfresh hit
    have hn : σ.nodes.find? (p.makeId i) = none := by simpa [Spec.key?] using hk
    rw [hn]
    dsimp only
    have hlen : d.nodes.length = i := by rw [i4, hit]
    have hnext : d.next = i := by rw [i3, hnt, hit]
    have hdn : (σ.dynInfo l p).next = i := by rw [hnt, hit]
    have hnlt : ¬ i < d.next := by omega
    have hemp : ∀ b : NodeAttrs, d.emplaceNode t (some b) false = .ok
        ({ d with times := d.times.add t, nodes := d.nodes ++ [some { id := p.makeId i, layer := l, timestamp := some t, attrs := some b }],
                  status := d.status.insert i .new, next := i + 1 }, true) := by
      intro b
      have : d.times.contains t = false := by rw [i5]; exact hst
      simp [DynLayer.emplaceNode, this, i1, i2, hnext, hlen]
    refine ⟨{ d with times := d.times.add t, nodes := d.nodes ++ [some { id := p.makeId i, layer := l, timestamp := some t, attrs := some (a.setPosition (P.F.add a.position (P.delta l p))) }],
                       status := d.status.insert i .new, next := i + 1 }, lk.insert (p.makeId i) (.dyn l p), ?_, ?_⟩
    rotate_left
    · refine .one (out := .bool true) h hw ?_ (ans_ok ?_)
      · simp only [Op.ok, hp, hdn, Bool.true_and, Bool.and_eq_true, decide_eq_true_eq]
        exact ⟨⟨hl, hi⟩, hit⟩
      · have hnc : (g.withDyn l p d lk).lookup.contains (p.makeId i) = false := OMap.contains_eq_false.2 (by rw [h.lookup', hk])
        have hhd : (g.withDyn l p d lk).hasDynLayer l p = true := by simp [Graph.hasDynLayer, Graph.withDyn_find]
        simp only [Graph.emplaceDyn, h.dyn_next, hdn, Graph.hasNode, hnc, Bool.false_eq_true, if_false, hhd, if_true, Graph.withDyn_find,
          Res.deref_some, Res.bind_ok, hemp, Bool.not_true, Res.pure_eq, Res.ok.injEq, Prod.mk.injEq, and_true]
        rw [Graph.withDyn_set]
        rfl
    · have hnc : lk.contains (p.makeId i) = false :=
        OMap.contains_eq_false.2 ((h.lookup' (p.makeId i)).trans hk)
      simp only [DynLayer.mergeNodeStep, Res.deref_some, Res.bind_ok, if_neg hnlt, ht, ha, hemp, List.getLast?_append, List.getLast?_singleton,
        Option.some_or, Res.pure_eq, Res.ok.injEq, Prod.mk.injEq]
      refine ⟨?_, ?_, trivial⟩
      · simp [hlen, hdel]
      · simp [OMap.emplace, hnc, i1, i2]

end
end Verif
