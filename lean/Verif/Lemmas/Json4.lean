import Verif.Lemmas.Json3
import Verif.Lemmas.Clone
/-! # Building a graph by calls that must succeed -/

namespace Verif

/-- A call that is expected to answer `true`. -/
def Graph.must (h : Graph) (op : Op) : Res Graph := do
  let r ← h.step op
  match r.2 with
  | .bool true => .ok r.1
  | _ => .throw .runtimeError

/-- The node with other attributes. -/
def NodeInfo.with (f : NodeAttrs → NodeAttrs) (i : NodeInfo) : NodeInfo := { i with attrs := f i.attrs }
/-- The edge with other attributes. -/
def EdgeInfo.with (f : EdgeAttrs → EdgeAttrs) (e : EdgeInfo) : EdgeInfo := { e with attrs := f e.attrs }

namespace R
variable {h : Graph} {τ : Spec}

theorem must {op : Op} (hr : R h τ) (hw : SWF τ) (hok : op.ok τ = true) (hb : ∃ s : Spec × Bool, τ.step op = Spec.ans s)
    (hne : ∀ h' o, h.step op = .ok (h', o) → h' ≠ h) :
    ∃ h', h.must op = .ok h' ∧ R h' (τ.step op).1 ∧ SWF (τ.step op).1 := by
  obtain ⟨h', o, e, ho, h1, h2, _⟩ := hr.step hw op hok
  obtain ⟨s, hs⟩ := hb
  rw [hs] at ho
  have ho := ho _ rfl
  subst ho
  refine ⟨h', ?_, h1, h2⟩
  cases hsb : s.2 with
  | false =>
    exfalso
    rw [hsb] at e
    exact hne h' _ e (hr.step_false e)
  | true =>
    rw [hsb] at e
    simp only [Graph.must, e, Res.bind_ok]

theorem must_nodes {N : List (NodeId × NodeInfo)} (hr : R h τ) (hw : SWF τ) (hf : τ.Fresh N) :
    ∃ h', foldRes Graph.must h (N.map cloneOp) = .ok h' ∧ R h' (τ.after (N.map cloneOp)) ∧ SWF (τ.after (N.map cloneOp)) := by
  induction N generalizing h τ with
  | nil => exact ⟨h, rfl, hr, hw⟩
  | cons e N ih =>
    obtain ⟨h1, h2, h3, h5, h6, h7⟩ := hf.step
    obtain ⟨h', e1, r1, w1⟩ := hr.must hw h1 (by
      unfold cloneOp
      cases e.2.key <;> exact ⟨_, rfl⟩) (by
      intro h' o he hh
      subst hh
      obtain ⟨h'', o', e', _, r', _, _⟩ := hr.step hw _ h1
      rw [he] at e'
      cases e'
      have a := RV.lookup hr e.1
      have b := RV.lookup r' e.1
      rw [a] at b
      unfold Spec.key? at b
      rw [h2, OMap.find?_insert_self, hf.new e List.mem_cons_self] at b
      cases b)
    obtain ⟨h'', e2, r2, w2⟩ := ih r1 w1 (hf.tail h2 h6)
    exact ⟨h'', by simp only [List.map_cons, foldRes_cons, e1, Res.bind_ok, e2], r2, w2⟩

theorem must_edges {Es : List EdgeInfo} (hr : R h τ) (hw : SWF τ) (hk : (Es.map Spec.ekey).Nodup)
    (he : ∀ e ∈ Es, e.src ≠ e.tgt ∧ τ.nodes.contains e.src = true ∧ τ.nodes.contains e.tgt = true ∧ τ.edges.find? (Spec.ekey e) = none) :
    ∃ h', foldRes Graph.must h (Es.map cloneEdgeOp) = .ok h' ∧ R h' (τ.after (Es.map cloneEdgeOp)) ∧ SWF (τ.after (Es.map cloneEdgeOp)) := by
  induction Es generalizing h τ with
  | nil => exact ⟨h, rfl, hr, hw⟩
  | cons e Es ih =>
    obtain ⟨a1, a2, a3, a4⟩ := he e List.mem_cons_self
    have hh : τ.hasEdge e.src e.tgt = false := OMap.contains_eq_false.2 a4
    have hs : τ.step (cloneEdgeOp e) = Spec.ans ({ τ with edges := τ.edges.insert (Spec.ekey e) e }, true) := by
      simp only [cloneEdgeOp, Spec.step, Spec.insertEdge, a1, a2, a3, hh, if_false, Bool.not_true, Bool.or_self, Bool.false_eq_true,
        Spec.addEdge, Option.getD_some]
      rfl
    have hok : (cloneEdgeOp e).ok τ = true := by
      have := (Spec.clone_edges [e] (τ := τ) (by simp) (by simpa using ⟨a1, a2, a3, a4⟩)).1
      simpa [Op.okAll] using this
    obtain ⟨h', o, e1, ho, r1, w1, _⟩ := hr.step hw _ hok
    rw [hs] at ho
    have ho := ho _ rfl
    subst ho
    simp only [List.map_cons, List.nodup_cons] at hk
    have e1' : h.must (cloneEdgeOp e) = .ok h' := by simp only [Graph.must, e1, Res.bind_ok]
    obtain ⟨h'', e2, r2, w2⟩ := ih r1 w1 hk.2 (by
      intro x hx
      obtain ⟨b1, b2, b3, b4⟩ := he x (List.mem_cons_of_mem _ hx)
      rw [hs]
      refine ⟨b1, b2, b3, ?_⟩
      show (τ.edges.insert (Spec.ekey e) e).find? (Spec.ekey x) = none
      rw [OMap.find?_insert_ne _ _ (by rintro hq; exact hk.1 (List.mem_map.2 ⟨x, hx, hq.symm⟩))]
      exact b4)
    exact ⟨h'', by simp only [List.map_cons, foldRes_cons, e1', Res.bind_ok, e2], r2, w2⟩

end R

/-- `must` is a history. -/
theorem Graph.must_run {ops : List Op} {h h' : Graph} (hm : foldRes Graph.must h ops = .ok h') : ∃ outs, h.run ops = .ok (h', outs) := by
  induction ops generalizing h with
  | nil => cases hm; exact ⟨[], rfl⟩
  | cons op ops ih =>
    simp only [foldRes_cons] at hm
    obtain ⟨h1, e1, e2⟩ := bind_eq_ok hm
    obtain ⟨outs, e3⟩ := ih e2
    unfold Graph.must at e1
    obtain ⟨r, e4, e5⟩ := bind_eq_ok e1
    have : r.1 = h1 := by split at e5 <;> cases e5; rfl
    refine ⟨r.2 :: outs, ?_⟩
    simp only [Graph.run, e4, Res.bind_ok, this, e3]

/-- The history that builds the graph again, from lists of its nodes and edges in any order. -/
theorem R.rebuild {g : Graph} {σ : Spec} (hg : R g σ) (hw : SWF σ) (hne : g.layerIds ≠ [])
    (hidx : ∀ n k, σ.key? n = some k → k.dynamic = true → n.toNat % 2 ^ 32 ≠ 2 ^ 32 - 1) (f : NodeAttrs → NodeAttrs) (fe : EdgeAttrs → EdgeAttrs)
    (N : List (NodeId × NodeInfo)) (hids : (N.map Prod.fst).Nodup) (hmem : ∀ n i, (n, i) ∈ N ↔ σ.nodes.find? n = some i)
    (Es : List EdgeInfo) (hek : (Es.map Spec.ekey).Nodup) (hmemE : ∀ e, e ∈ Es ↔ σ.edges.find? (Spec.ekey e) = some e) (M : Option Mesh) :
    ∃ h0 h1 h2 ops τ, Graph.create g.layerIds = .ok h0 ∧ foldRes Graph.must h0 (N.map (fun e => cloneOp (e.1, e.2.with f))) = .ok h1 ∧
      foldRes Graph.must h1 (Es.map (fun e => cloneEdgeOp (e.with fe))) = .ok h2 ∧
      Reached g.layerIds ops (match M with | none => h2 | some m => h2.setMesh (some m)) ∧
      R (match M with | none => h2 | some m => h2.setMesh (some m)) τ ∧ SWF τ ∧ τ.layerIds = σ.layerIds ∧ τ.mesh = M ∧
      (∀ n, τ.nodes.find? n = (σ.nodes.find? n).map (fun i => (i.with f).cloned)) ∧ (∀ k, τ.edges.find? k = (σ.edges.find? k).map (EdgeInfo.with fe)) ∧
      (∀ l p, τ.dyn.contains (l, p) = true ↔ ∃ n i, σ.nodes.find? n = some i ∧ i.key = .dyn l p) := by
  have hlay : g.layerIds = σ.layerIds := hg.layerIds
  have hN : ∀ e ∈ N, σ.nodes.find? e.1 = some e.2 := fun e he => (hmem e.1 e.2).1 he
  let N' := N.map (fun e => (e.1, e.2.with f))
  have hN' : ∀ e ∈ N', ∃ i, (e.1, i) ∈ N ∧ e.2 = i.with f := by
    intro e he
    obtain ⟨x, hx, rfl⟩ := List.mem_map.1 he
    exact ⟨x.2, hx, rfl⟩
  have hfst : N'.map Prod.fst = N.map Prod.fst := by simp only [N', List.map_map]; rfl
  have hf : (Spec.init g.layerIds).Fresh N' := by
    constructor
    · intro e he l hk
      obtain ⟨i, hi, hx⟩ := hN' e he
      have := (hw.node e.1 i (hN _ hi)).1
      rw [hx] at hk
      rw [show i.key = .static l from hk] at this
      show g.layerIds.contains l = true
      rw [hlay]
      exact this
    · intro e he
      obtain ⟨i, hi, hx⟩ := hN' e he
      have := (hw.node e.1 i (hN _ hi)).2
      unfold LayerKey.valid at this
      rw [hx]
      simpa [NodeInfo.with] using this
    · intro e he l p hk
      obtain ⟨i, hi, hx⟩ := hN' e he
      rw [hx] at hk ⊢
      have hk : i.key = .dyn l p := hk
      have hi := hN _ hi
      obtain ⟨h1, h2, h3⟩ := hw.dyn e.1 i l p hi hk
      have hp : p = Prefix.fromId e.1 := (Prefix.isMatch_iff p e.1).1 h2
      refine ⟨h3, hp, hp ▸ h1, ?_⟩
      have := hidx e.1 i.key (by simp [Spec.key?, hi]) (by rw [hk]; rfl)
      rw [Prefix.index_eq]
      omega
    · intro e _; rfl
    · intro e _ m j hj; cases hj
    · rw [hfst]; exact hids
    · intro e he e' he' hd hk hst
      obtain ⟨i, hi, hx⟩ := hN' e he
      obtain ⟨i', hi', hx'⟩ := hN' e' he'
      rw [hx] at hd hk hst
      rw [hx'] at hk hst
      have hk : i.key = i'.key := hk
      cases hk' : i.key with
      | static l => rw [show (i.with f).key = i.key from rfl, hk'] at hd; cases hd
      | dyn l p => exact hw.stamps e.1 e'.1 i i' l p (hN _ hi) (hN _ hi') hk' (by rw [← hk, hk']) hst
  obtain ⟨a1, a2, a3, a4, a5, a6, a7⟩ := Spec.clone_nodes hf
  have hnodes : ∀ n, ((Spec.init g.layerIds).after (N'.map cloneOp)).nodes.find? n = (σ.nodes.find? n).map (fun i => (i.with f).cloned) := by
    intro n
    cases hn : σ.nodes.find? n with
    | some i => exact a2 (n, i.with f) (List.mem_map.2 ⟨(n, i), (hmem n i).2 hn, rfl⟩)
    | none =>
      rw [a3 n ?_]
      · rfl
      · intro hm
        obtain ⟨e, he, rfl⟩ := List.mem_map.1 hm
        obtain ⟨i, hi, _⟩ := hN' e he
        rw [hN _ hi] at hn
        cases hn
  have hcont : ∀ n, ((Spec.init g.layerIds).after (N'.map cloneOp)).nodes.contains n = σ.nodes.contains n := by
    intro n
    rw [Bool.eq_iff_iff, OMap.contains_eq_true, OMap.contains_eq_true, hnodes]
    cases σ.nodes.find? n <;> simp
  let Es' := Es.map (EdgeInfo.with fe)
  have hkeys : Es'.map Spec.ekey = Es.map Spec.ekey := by simp only [Es', List.map_map]; rfl
  have hE : ∀ e ∈ Es', e.src ≠ e.tgt ∧ ((Spec.init g.layerIds).after (N'.map cloneOp)).nodes.contains e.src = true ∧
      ((Spec.init g.layerIds).after (N'.map cloneOp)).nodes.contains e.tgt = true ∧
      ((Spec.init g.layerIds).after (N'.map cloneOp)).edges.find? (Spec.ekey e) = none := by
    intro e he
    obtain ⟨e, he', rfl⟩ := List.mem_map.1 he
    obtain ⟨_, h2, h3, h4⟩ := hw.edge _ _ ((hmemE e).1 he')
    show e.src ≠ e.tgt ∧ _ = true ∧ _ = true ∧ _
    rw [hcont, hcont, a4]
    exact ⟨h2, h3, h4, rfl⟩
  obtain ⟨b1, b2, b3, b4, b5, b6, b7⟩ := Spec.clone_edges (τ := (Spec.init g.layerIds).after (N'.map cloneOp)) _ (hkeys ▸ hek) hE
  obtain ⟨h0, c0, r0⟩ := R.create hne
  obtain ⟨h1, c1, r1, w1⟩ := R.must_nodes r0 (SWF.empty _) hf
  obtain ⟨h2, c2, r2, w2⟩ := R.must_edges r1 w1 (hkeys ▸ hek) hE
  have hok : Op.okAll (Spec.init g.layerIds) (N'.map cloneOp ++ (Es'.map cloneEdgeOp ++ meshOps M)) = true := by
    rw [Op.okAll_append, a1, Op.okAll_append, b1]
    cases M <;> rfl
  have hrun : ∃ outs, Graph.exec g.layerIds (N'.map cloneOp ++ (Es'.map cloneEdgeOp ++ meshOps M)) =
      .ok (match M with | none => h2 | some m => h2.setMesh (some m), outs) := by
    obtain ⟨h, outs, hex, _⟩ := exec_ok hne hok
    refine ⟨outs, ?_⟩
    have hex' := hex
    unfold Graph.exec at hex
    obtain ⟨g0, hc, hrun⟩ := bind_eq_ok hex
    rw [c0] at hc
    cases hc
    obtain ⟨g1, o1, o2, s1, s2⟩ := Graph.run_split hrun
    obtain ⟨g2, o3, o4, s3, s4⟩ := Graph.run_split s2
    obtain ⟨q1, t1⟩ := Graph.must_run c1
    rw [s1] at t1
    cases t1
    obtain ⟨q2, t2⟩ := Graph.must_run c2
    rw [s3] at t2
    cases t2
    rw [hex']
    cases M with
    | none => cases s4; rfl
    | some m => cases s4; rfl
  have hre : Reached g.layerIds _ _ := ⟨hne, hok, hrun⟩
  obtain ⟨rr, rw'⟩ := hre.rep
  refine ⟨h0, h1, h2, _, _, c0, ?_, ?_, hre, rr, rw', ?_, ?_, ?_, ?_, ?_⟩
  · have : N'.map cloneOp = N.map (fun e => cloneOp (e.1, e.2.with f)) := by simp only [N', List.map_map]; rfl
    rw [← this]
    exact c1
  · have : Es'.map cloneEdgeOp = Es.map (fun e => cloneEdgeOp (e.with fe)) := by simp only [Es', List.map_map]; rfl
    rw [← this]
    exact c2
  · rw [Spec.after_append, Spec.after_append, ← hlay]
    refine Eq.trans ?_ (b4.trans a6)
    cases M <;> rfl
  · rw [Spec.after_append, Spec.after_append]
    cases M with
    | none => exact b3.trans a5
    | some m => rfl
  · intro n
    rw [Spec.after_append, Spec.after_append, ← hnodes, ← b2]
    cases M <;> rfl
  · intro k
    rw [Spec.after_append, Spec.after_append]
    have : ((((Spec.init g.layerIds).after (N'.map cloneOp)).after (Es'.map cloneEdgeOp)).after (meshOps M)).edges
        = (((Spec.init g.layerIds).after (N'.map cloneOp)).after (Es'.map cloneEdgeOp)).edges := by
      cases M <;> rfl
    rw [this]
    cases hk : σ.edges.find? k with
    | some e =>
      have hke : k = Spec.ekey e := (hw.edge k e hk).1
      subst hke
      exact b6 (e.with fe) (List.mem_map_of_mem ((hmemE e).2 hk))
    | none =>
      rw [b7 k ?_, a4]
      · rfl
      · intro hm
        rw [hkeys] at hm
        obtain ⟨e, he, rfl⟩ := List.mem_map.1 hm
        rw [(hmemE e).1 he] at hk
        cases hk
  · intro l p
    rw [Spec.after_append, Spec.after_append]
    have : ((((Spec.init g.layerIds).after (N'.map cloneOp)).after (Es'.map cloneEdgeOp)).after (meshOps M)).dyn
        = (((Spec.init g.layerIds).after (N'.map cloneOp)).after (Es'.map cloneEdgeOp)).dyn := by
      cases M <;> rfl
    rw [this, b5, a7]
    have h0 : (Spec.init g.layerIds).dyn.contains (l, p) = false := rfl
    rw [h0, Bool.false_or, List.any_eq_true]
    constructor
    · rintro ⟨e, he, hk⟩
      obtain ⟨i, hi, hx⟩ := hN' e he
      rw [hx] at hk
      exact ⟨e.1, i, hN _ hi, of_decide_eq_true hk⟩
    · rintro ⟨n, i, hn, hk⟩
      exact ⟨(n, i.with f), List.mem_map.2 ⟨(n, i), (hmem n i).2 hn, rfl⟩, decide_eq_true (show (i.with f).key = _ from hk)⟩

end Verif
