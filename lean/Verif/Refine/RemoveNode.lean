import Verif.Refine.EdgeOps2
/-!
# Refinement: `removeNode`
-/

namespace Verif

section
variable {g : Graph} {σ : Spec}

/-- edges from `n` to a neighbour whose layer satisfies `P` -/
def Spec.rel (σ : Spec) (n : NodeId) (P : LayerKey → Bool) (key : EdgeKey) : Bool :=
  key.has n && (σ.key? (key.other n)).any P

theorem Spec.rel_of (n m : NodeId) (P : LayerKey → Bool) : σ.rel n P (EdgeKey.of n m) = (σ.key? m).any P := by
  simp [Spec.rel, EdgeKey.has_of_left, EdgeKey.other_of_left]

theorem Spec.mem_nbrs {n m : NodeId} {P : LayerKey → Bool} :
    m ∈ (σ.nbrs n P).keys ↔ (σ.key? m).any P = true ∧ σ.hasEdge n m = true := by
  rw [OMap.mem_keys, Spec.contains_nbrs, Bool.and_eq_true]

theorem SWF.drop_rel (hw : SWF σ) (n : NodeId) (P : LayerKey → Bool) :
    σ.dropEdges (fun key => (σ.nbrs n P).keys.any (fun m => EdgeKey.of n m == key)) = σ.dropEdges (σ.rel n P) := by
  apply hw.drop_eq
  · intro m hm
    rw [Spec.rel_of, Bool.eq_iff_iff, List.contains_iff_mem, Spec.mem_nbrs]; simp [hm]
  · intro key _ hh; simp [Spec.rel, hh]

/-- The loop of `removeNode` over children or parents. -/
theorem R.dropInter (h : R g σ) (hw : SWF σ) {n : NodeId} {i : NodeInfo} (hn : σ.nodes.find? n = some i)
    (P : LayerKey → Bool) (hP : ∀ k, P k = true → k ≠ i.key) (gone : NodeStatus) :
    ∃ g', foldRes (fun g t => g.removeInterlayerEdge' n t) g (σ.nbrs n P).keys = .ok g' ∧
      Adv gone g.view g'.view (σ.dropEdges (σ.rel n P)) := by
  obtain ⟨g', e, A⟩ := fold_erase (fun g t => g.removeInterlayerEdge' n t) (fun q => EdgeKey.of n q) gone
    (σ0 := σ) (σ.nbrs n P).keys (pairwise_of_keys n (OMap.keys_nodup _)) (by
      intro g1 σ1 q hq h1 hw1 hn1 he1
      obtain ⟨hk, hE⟩ := Spec.mem_nbrs.1 hq
      have hE1 : σ1.hasEdge n q = true := by
        simp only [Spec.hasEdge, OMap.contains] at hE ⊢; rw [he1]; exact hE
      rw [Option.any_eq_true_iff_get] at hk
      obtain ⟨hk1, hk2⟩ := hk
      obtain ⟨k', hk'⟩ := Option.isSome_iff_exists.1 hk1
      obtain ⟨j, hj, rfl⟩ := Spec.exists_of_key? hk'
      have hPj : P j.key = true := by simpa [hk'] using hk2
      have hi1 : σ1.nodes.find? n = some i := by rw [hn1]; exact hn
      have hj1 : σ1.nodes.find? q = some j := by rw [hn1]; exact hj
      obtain ⟨g2, e2, A2⟩ := R.inter_remove h1 hw1 hi1 hj1 (Ne.symm (hP _ hPj)) hE1 gone
      refine ⟨g2, ?_, A2⟩
      simp [Graph.removeInterlayerEdge', R.lookup' h1, Spec.key?_eq hi1, Spec.key?_eq hj1, e2]) g h hw
  rw [hw.drop_rel] at A
  exact ⟨g', e, A⟩

theorem Res.bind_assoc' {α β γ : Type} (x : Res α) (f : α → Res β) (k : β → Res γ) :
    ((x >>= f) >>= k) = (x >>= fun a => f a >>= k) := by
  cases x <;> rfl

theorem fits_static (l l' : Layer) (k : LayerKey) : (BaseLayer.static l).fits k ↔ (BaseLayer.static l').fits k := by
  cases k <;> exact Iff.rfl
theorem fits_dyn (l l' : DynLayer) (k : LayerKey) : (BaseLayer.dyn l).fits k ↔ (BaseLayer.dyn l').fits k := by
  cases k <;> exact Iff.rfl

/-- The loop over siblings inside one layer. -/
theorem R.dropWithin (h : R g σ) (hw : SWF σ) {n : NodeId} {i : NodeInfo} (hn : σ.nodes.find? n = some i)
    {b : BaseLayer} (hb : g.layerAt? i.key = some b) {L : List NodeId} (hL : L.Nodup)
    (hLk : ∀ m ∈ L, σ.key? m = some i.key ∧ σ.hasEdge n m = true) (gone : NodeStatus) :
    ∃ b', foldRes (fun b t => b.removeEdge n t >>= fun r => .ok r.1) b L = .ok b' ∧ b'.fits i.key ∧
      Adv gone g.view (g.setLayer i.key b').view (σ.dropEdges (fun key => L.any (fun m => EdgeKey.of n m == key))) := by
  let fb : BaseLayer → NodeId → Res BaseLayer := fun b t => b.removeEdge n t >>= fun r => .ok r.1
  obtain ⟨g', e, A⟩ := fold_erase
    (fun g t => match g.layerAt? i.key with
      | none => Res.ub
      | some b => fb b t >>= fun b' => .ok (g.setLayer i.key b')) (fun q => EdgeKey.of n q) gone
    (σ0 := σ) L (pairwise_of_keys n hL) (by
      intro g1 σ1 q hq h1 hw1 hn1 he1
      obtain ⟨hk, hE⟩ := hLk q hq
      obtain ⟨j, hj, hjk⟩ := Spec.exists_of_key? hk
      have hE1 : σ1.hasEdge n q = true := by
        simp only [Spec.hasEdge, OMap.contains] at hE ⊢; rw [he1]; exact hE
      have hi1 : σ1.nodes.find? n = some i := by rw [hn1]; exact hn
      have hj1 : σ1.nodes.find? q = some j := by rw [hn1]; exact hj
      obtain ⟨b1, hb1⟩ := R.layerAt? h1 hw1 (Spec.key?_eq hi1)
      obtain ⟨b', e', f', A'⟩ := R.layer_remove h1 hi1 hj1 hjk.symm (hw1.hasEdge_nodes hE1).1 hE1 hb1 gone
      exact ⟨g1.setLayer i.key b', by simp [hb1, fb, e'], A'⟩) g h hw
  obtain ⟨b', e1, e2, f⟩ := fold_layer fb i.key (by
    intro b a b' hfb hf
    simp only [fb] at hfb
    cases hr : b.removeEdge n a with
    | ub => simp [hr] at hfb
    | throw x => simp [hr] at hfb
    | ok r =>
      simp only [hr, Res.bind_ok, Res.ok.injEq] at hfb
      subst hfb
      cases b with
      | static l =>
        simp only [BaseLayer.removeEdge] at hr
        cases hl : l.removeEdge n a <;> simp [hl] at hr
        subst hr; exact (fits_static _ _ _).1 hf
      | dyn l =>
        simp only [BaseLayer.removeEdge] at hr
        cases hl : l.removeEdge n a <;> simp [hl] at hr
        subst hr; exact (fits_dyn _ _ _).1 hf) L g b hb g' e
  exact ⟨b', e1, f, by rw [← e2]; exact A⟩

theorem fold_static (n : NodeId) (L : List NodeId) (l : Layer) :
    foldRes (fun (b : BaseLayer) t => b.removeEdge n t >>= fun r => .ok r.1) (.static l) L =
      (foldRes (fun l t => (l.removeEdge n t) >>= fun r => .ok r.1) l L >>= fun l => .ok (.static l)) := by
  induction L generalizing l with
  | nil => rfl
  | cons a L ih =>
    simp only [foldRes_cons]
    rw [show (BaseLayer.static l).removeEdge n a = (l.removeEdge n a >>= fun r => .ok (BaseLayer.static r.1, r.2)) from rfl]
    cases l.removeEdge n a with
    | ub => rfl
    | throw x => rfl
    | ok r => exact ih r.1

theorem fold_dyn (n : NodeId) (L : List NodeId) (l : DynLayer) :
    foldRes (fun (b : BaseLayer) t => b.removeEdge n t >>= fun r => .ok r.1) (.dyn l) L =
      (foldRes (fun l t => (l.removeEdge n t) >>= fun r => .ok r.1) l L >>= fun l => .ok (.dyn l)) := by
  induction L generalizing l with
  | nil => rfl
  | cons a L ih =>
    simp only [foldRes_cons]
    rw [show (BaseLayer.dyn l).removeEdge n a = (l.removeEdge n a >>= fun r => .ok (BaseLayer.dyn r.1, r.2)) from rfl]
    cases l.removeEdge n a with
    | ub => rfl
    | throw x => rfl
    | ok r => exact ih r.1

/-- Deleting the record of a node without edges from its layer and from the lookup table. -/
theorem R.delIn (h : R g σ) (hw : SWF σ) {n : NodeId} {i : NodeInfo} (hn : σ.nodes.find? n = some i)
    (hE : ∀ m, σ.hasEdge n m = false) {b b' : BaseLayer} (hb : g.layerAt? i.key = some b) (hf : b'.fits i.key)
    {gone : NodeStatus} (hg : NodeStatus.live (some gone) = false)
    (hnd : ∀ m, b'.nd m = if n = m then none else b.nd m)
    (hst : ∀ m, b'.nst m = if n = m then some gone else b.nst m)
    (hec : b'.ec = b.ec)
    (hinfo : infoOk b'.info { σ with nodes := σ.nodes.erase n } i.key) :
    Adv gone g.view { g.setLayer i.key b' with lookup := g.lookup.erase n : Graph }.view { σ with nodes := σ.nodes.erase n } := by
  generalize hg' : ({ g.setLayer i.key b' with lookup := g.lookup.erase n } : Graph) = g'
  have hl : ∀ k, g'.layerAt? k = if i.key = k then some b' else g.layerAt? k := by
    intro k; subst hg'; exact Graph.layerAt?_setLayer' (g := g) hf k
  have vn : ∀ k m, g'.view.node k m = if i.key = k ∧ n = m then none else g.view.node k m := by
    intro k m
    simp only [Graph.view, hl]
    by_cases e : i.key = k
    · subst e; simp [hb, hnd]
    · simp [e]
  have vs : ∀ k m, g'.view.st k m = if i.key = k ∧ n = m then some gone else g.view.st k m := by
    intro k m
    simp only [Graph.view, hl]
    by_cases e : i.key = k
    · subst e; simp [hb, hst]
    · simp [e]
  have ve : g'.view.ec = g.view.ec := by
    funext c
    cases c with
    | within k =>
      simp only [Graph.view, Graph.ecAt?, hl]
      by_cases e : i.key = k
      · subst e; simp [hb, hec]
      · simp [e]
    | across d => subst hg'; cases d <;> simp [Graph.view, Graph.ecAt?]
  have vi : ∀ k, g'.view.info k = if i.key = k then some b'.info else g.view.info k := by
    intro k
    simp only [Graph.view, hl]
    by_cases e : i.key = k <;> simp [e]
  have hhere : g.view.node i.key n = some (σ.mkNode n i) := RV.node_of h hn
  refine ⟨RV.delNode h hw hn hE ?_ ?_ ?_ vn ?_ ve ?_ ?_, ?_, ELog.of_ec ve⟩
  · subst hg'; simp [Graph.view]
  · subst hg'; simp [Graph.view]
  · intro m; subst hg'; simp [Graph.view, OMap.find?_erase]
  · intro k m
    rw [vn, vs]
    split
    · exact hg
    · exact h.live k m
  · intro k
    rw [vi]
    by_cases e : i.key = k
    · subst e; simp [Graph.view, hb]
    · simp [e]
  · intro k m hm
    rw [vi] at hm
    by_cases e : i.key = k
    · subst e; simp only [if_true, Option.some.injEq] at hm; subst hm; exact hinfo
    · simp only [e, if_false] at hm
      have h0 := h.info k m hm
      cases k with
      | static l => exact h0
      | dyn l p =>
        obtain ⟨a1, a2, a3, a4, a6, a5⟩ := h0
        refine ⟨a1, a2, a3, a4, a6, ?_⟩
        intro t
        rw [a5, Bool.eq_iff_iff, Spec.hasStamp_iff, Spec.hasStamp_iff]
        constructor
        · rintro ⟨m', j, h1, h2, h3⟩
          refine ⟨m', j, ?_, h2, h3⟩
          simp only [OMap.find?_erase]
          rw [if_neg]
          · exact h1
          · rintro rfl; rw [hn] at h1; cases h1; exact e h2
        · rintro ⟨m', j, h1, h2, h3⟩
          simp only [OMap.find?_erase] at h1
          split at h1
          · cases h1
          · exact ⟨m', j, h1, h2, h3⟩
  · intro k m
    rw [vs, vn]
    by_cases e : i.key = k ∧ n = m
    · obtain ⟨rfl, rfl⟩ := e; simp [hhere]
    · simp [e]

/-- no edge of `n` goes to another layer with the same layer id (two trajectories, or a static layer and a
trajectory, under one id) -/
def Spec.noCross (σ : Spec) (n : NodeId) : Prop :=
  ∀ m, σ.hasEdge n m = true → (σ.key? m).map LayerKey.layer = (σ.key? n).map LayerKey.layer → σ.key? m = σ.key? n

theorem NodeId.pred_ne (n : NodeId) : n - 1 ≠ n := by
  intro e
  have := congrArg UInt64.toNat e
  simp only [UInt64.toNat_sub, UInt64.toNat_one] at this
  have := n.toNat_lt
  omega

theorem NodeId.succ_ne (n : NodeId) : n + 1 ≠ n := by
  intro e
  have := congrArg UInt64.toNat e
  simp only [UInt64.toNat_add, UInt64.toNat_one] at this
  have := n.toNat_lt
  omega

theorem NodeId.pred_ne_succ (n : NodeId) : n - 1 ≠ n + 1 := by
  intro e
  have := congrArg UInt64.toNat e
  simp only [UInt64.toNat_add, UInt64.toNat_sub, UInt64.toNat_one] at this
  have := n.toNat_lt
  omega

/-- key of an edge not at `n` -/
theorem EdgeKey.has_ne {a b n : NodeId} (h1 : a ≠ n) (h2 : b ≠ n) : (EdgeKey.of a b).has n = false := by
  simp [EdgeKey.has_of, h1, h2]

/-- dynamic_scene_graph_layer.cpp:250-259: the bridging step of `DynamicSceneGraphLayer::removeNode`. -/
def bridgeIn (x : Node) (n : NodeId) : BaseLayer → Res BaseLayer
  | .static l => .ok (.static l)
  | .dyn d => (if d.hasNode (n - 1) && x.siblings.contains (n - 1) &&
            (d.hasNode (n + 1) && x.siblings.contains (n + 1)) then do
              let r ← d.insertEdge (n - 1) (n + 1) none
              pure r.1
            else pure d : Res DynLayer) >>= (fun d => .ok (BaseLayer.dyn d))

/-- The layer part of `removeNode`, when only edges inside the layer are left. -/
theorem R.layerRemove (h : R g σ) (hw : SWF σ) {n : NodeId} {i : NodeInfo} (hn : σ.nodes.find? n = some i)
    (hE : ∀ m, σ.hasEdge n m = true → σ.key? m = some i.key) {b : BaseLayer} (hb : g.layerAt? i.key = some b) :
    ∃ b', b.removeNode n = .ok (b', true) ∧
      Adv .deleted g.view { g.setLayer i.key b' with lookup := g.lookup.erase n : Graph }.view ((σ.bridge n).dropNode n) := by
  have hkn := Spec.key?_eq hn
  have hnd : b.nd n = some (σ.mkNode n i) := by
    rw [← Graph.view_node_of_layerAt? hb]; exact RV.node_of h hn
  -- siblings are exactly the neighbours
  have hsib : ∀ m, m ∈ (σ.mkNode n i).siblings.keys ↔ σ.hasEdge n m = true := by
    intro m
    show m ∈ (σ.siblings n i.key).keys ↔ _
    rw [Spec.mem_siblings]
    constructor
    · rintro ⟨k', -, -, h3⟩; exact h3
    · intro hm; exact ⟨i.key, hE m hm, rfl, hm⟩
  -- the bridged state
  obtain ⟨b1, σ1, hb1, hbr, hf1, A1, hbσ, hn1, hw1, hE1⟩ : ∃ (b1 : BaseLayer) (σ1 : Spec),
      bridgeIn (σ.mkNode n i) n b = .ok b1 ∧
      b1.nd n = some (σ.mkNode n i) ∧ b1.fits i.key ∧ Adv .deleted g.view (g.setLayer i.key b1).view σ1 ∧ σ1 = σ.bridge n ∧
      σ1.nodes = σ.nodes ∧ SWF σ1 ∧ (∀ m, σ1.hasEdge n m = σ.hasEdge n m) := by
    have hf := Graph.fits_of_layerAt? hb
    cases hbb : b with
    | static l =>
      subst hbb
      have hst : ∃ l', i.key = .static l' := by
        cases hk : i.key with
        | static l' => exact ⟨l', rfl⟩
        | dyn l' p' => rw [hk] at hf; exact hf.elim
      obtain ⟨l', hl'⟩ := hst
      have hσb : σ.bridge n = σ := by simp [Spec.bridge, hkn, hl']
      refine ⟨.static l, σ, rfl, hnd, hf, ?_, hσb.symm, rfl, hw, fun _ => rfl⟩
      rw [Graph.setLayer_self hb]; exact Adv.refl _ h
    | dyn d =>
      subst hbb
      have hst : ∃ l' p', i.key = .dyn l' p' := by
        cases hk : i.key with
        | static l' => rw [hk] at hf; exact hf.elim
        | dyn l' p' => exact ⟨l', p', rfl⟩
      obtain ⟨l', p', hk⟩ := hst
      have hhas : ∀ m, d.hasNode m = decide (σ.key? m = some i.key) := by
        intro m
        have h1 := BaseLayer.hasNode_eq (h.blive hb) m
        simp only [BaseLayer.hasNode] at h1
        rw [h1, ← Graph.view_node_of_layerAt? hb, RV.hasN_eq h]
      have hsc : ∀ m, (σ.mkNode n i).siblings.contains m = σ.hasEdge n m := by
        intro m
        rw [Bool.eq_iff_iff, ← OMap.mem_keys, hsib]
      simp only [bridgeIn, hhas, hsc]
      by_cases hc : σ.key? (n - 1) = some i.key ∧ σ.hasEdge n (n - 1) = true ∧ σ.key? (n + 1) = some i.key ∧ σ.hasEdge n (n + 1) = true
      · obtain ⟨c1, c2, c3, c4⟩ := hc
        simp only [c1, c2, c3, c4, decide_true, Bool.and_self, if_true]
        cases he : σ.hasEdge (n - 1) (n + 1) with
        | true =>
          have hσb : σ.bridge n = σ := by simp [Spec.bridge, hkn, hk, he]
          have hcc : (BaseLayer.dyn d).ec.contains (n - 1) (n + 1) = true := by
            rw [← h.ecWithin hb]
            have := RV.contains_eq h c1 c3
            simpa [place, he] using this
          have hins := BaseLayer.insertEdge_has hcc none
          refine ⟨.dyn d, σ, ?_, hnd, hf, ?_, hσb.symm, rfl, hw, fun _ => rfl⟩
          · simp only [BaseLayer.insertEdge] at hins
            cases hq : d.insertEdge (n - 1) (n + 1) none with
            | ub => simp [hq] at hins
            | throw x => simp [hq] at hins
            | ok r => simp [hq] at hins ⊢; exact hins.1
          · rw [Graph.setLayer_self hb]; exact Adv.refl _ h
        | false =>
          obtain ⟨b', r, e, f, A⟩ := h.layer_insert_any hb (n - 1) (n + 1) none .deleted (NodeId.pred_ne_succ n) he
          rw [if_pos ⟨c1, c3⟩] at A
          have hσb : σ.bridge n = σ.addEdge (n - 1) (n + 1) {} := by
            rw [hk] at c1 c3
            simp [Spec.bridge, hkn, hk, he, c1, c2, c3, c4]
          have hEE : ∀ m, (σ.addEdge (n - 1) (n + 1) ({} : EdgeAttrs)).hasEdge n m = σ.hasEdge n m := by
            intro m
            rw [Spec.hasEdge_addEdge]
            have e1 : (n == n - 1) = false := by simpa using (NodeId.pred_ne n).symm
            have e2 : (n == n + 1) = false := by simpa using (NodeId.succ_ne n).symm
            simp [e1, e2]
          refine ⟨b', σ.addEdge (n - 1) (n + 1) {}, ?_, ?_, f, A, hσb.symm, rfl, ?_, hEE⟩
          · simp only [BaseLayer.insertEdge] at e
            cases hq : d.insertEdge (n - 1) (n + 1) none with
            | ub => simp [hq] at e
            | throw x => simp [hq] at e
            | ok r => simp [hq] at e ⊢; exact e.1
          · have hb' : (g.setLayer i.key b').layerAt? i.key = some b' := by rw [Graph.layerAt?_setLayer' f]; simp
            rw [← Graph.view_node_of_layerAt? hb', RV.node_of A.r (i := i) hn]
            congr 1
            exact Spec.mkNode_congr (fun _ => rfl) hEE
          · refine hw.addEdge ?_ ?_ (NodeId.pred_ne_succ n) _
            · rw [Spec.contains_of_key?, c1]; rfl
            · rw [Spec.contains_of_key?, c3]; rfl
      · have hσb : σ.bridge n = σ := by
          simp only [Spec.bridge, hkn, hk]
          rw [hk] at hc
          rw [if_neg]
          rintro ⟨q1, q2, q3, q4, -⟩; exact hc ⟨q1, q3, q2, q4⟩
        refine ⟨.dyn d, σ, ?_, hnd, hf, ?_, hσb.symm, rfl, hw, fun _ => rfl⟩
        · rw [if_neg]
          · rfl
          · intro hh
            simp only [Bool.and_eq_true, decide_eq_true_eq] at hh
            exact hc ⟨hh.1.1, hh.1.2, hh.2.1, hh.2.2⟩
        · rw [Graph.setLayer_self hb]; exact Adv.refl _ h
  -- the sibling loop
  have hb1' : (g.setLayer i.key b1).layerAt? i.key = some b1 := by rw [Graph.layerAt?_setLayer' hf1]; simp
  have hk1 : ∀ m, σ1.key? m = σ.key? m := fun m => by simp [Spec.key?, hn1]
  have hnσ1 : σ1.nodes.find? n = some i := by rw [hn1]; exact hn
  obtain ⟨b2, e2, f2, A2⟩ := R.dropWithin (g := g.setLayer i.key b1) A1.r hw1 hnσ1 hb1' (L := (σ.mkNode n i).siblings.keys)
    (OMap.keys_nodup _) (by
      intro m hm
      have := (hsib m).1 hm
      exact ⟨by rw [hk1]; exact hE m this, by rw [hE1]; exact this⟩) .deleted
  rw [Graph.setLayer_setLayer hf1 f2] at A2
  have hdrop : σ1.dropEdges (fun key => (σ.mkNode n i).siblings.keys.any (fun m => EdgeKey.of n m == key)) =
      σ1.dropEdges (fun key => key.has n) := by
    apply hw1.drop_eq
    · intro m hm
      rw [EdgeKey.has_of_left, eq_comm, List.contains_iff_mem, hsib, ← hE1]; exact hm
    · intro key _ hh; exact hh
  rw [hdrop] at A2
  have A12 : Adv .deleted g.view (g.setLayer i.key b2).view (σ1.dropEdges (fun key => key.has n)) := by
    refine Adv.trans h A1 A2 hk1 (fun _ => rfl) ?_
    intro key
    rw [Spec.contains_dropEdges]
    cases hh : key.has n with
    | false => right; simp
    | true =>
      left
      rw [hbσ]
      unfold Spec.bridge
      split
      · split
        · simp only [Spec.addEdge, OMap.contains_insert]
          have : EdgeKey.of (n - 1) (n + 1) ≠ key := by
            rintro rfl
            rw [EdgeKey.has_ne (NodeId.pred_ne n) (NodeId.succ_ne n)] at hh; cases hh
          simp [this]
        · rfl
      · rfl
  -- deletion
  generalize hσ2 : σ1.dropEdges (fun key => key.has n) = σ2 at *
  have hw2 : SWF σ2 := by rw [← hσ2]; exact hw1.dropEdges _
  have hn2 : σ2.nodes.find? n = some i := by rw [← hσ2]; exact hnσ1
  have hE2 : ∀ m, σ2.hasEdge n m = false := by
    intro m; rw [← hσ2, Spec.hasEdge, Spec.contains_dropEdges, EdgeKey.has_of_left]; simp
  have hb2 : (g.setLayer i.key b2).layerAt? i.key = some b2 := by rw [Graph.layerAt?_setLayer' f2]; simp
  have hnd2 : b2.nd n = some (σ2.mkNode n i) := by
    rw [← Graph.view_node_of_layerAt? hb2]; exact RV.node_of A12.r hn2
  have hinf2 : infoOk b2.info σ2 i.key := A12.r.info i.key b2.info (by simp [Graph.view, hb2])
  have hfin : ({ σ2 with nodes := σ2.nodes.erase n } : Spec) = (σ.bridge n).dropNode n := by
    rw [← hσ2, hbσ]; rfl
  -- per kind
  have key : ∀ b3 : BaseLayer, b3.fits i.key → (∀ m, b3.nd m = if n = m then none else b2.nd m) →
      (∀ m, b3.nst m = if n = m then some .deleted else b2.nst m) → b3.ec = b2.ec →
      infoOk b3.info { σ2 with nodes := σ2.nodes.erase n } i.key →
      Adv .deleted g.view { g.setLayer i.key b3 with lookup := g.lookup.erase n : Graph }.view ((σ.bridge n).dropNode n) := by
    intro b3 f3 q1 q2 q3 q4
    have A3 := R.delIn (g := g.setLayer i.key b2) A12.r hw2 hn2 hE2 hb2 f3 rfl q1 q2 q3 q4
    rw [Graph.setLayer_setLayer f2 f3, Graph.lookup_setLayer, hfin] at A3
    refine ⟨A3.r, A12.nlog.trans A3.nlog ?_, A12.elog.trans A3.elog ?_⟩
    · intro k m; left
      rw [RV.hasN_eq h, RV.hasN_eq A12.r, ← hσ2, show (σ1.dropEdges _).key? m = σ1.key? m from rfl, hk1]
    · intro c key'; right
      rw [RV.hasE_eq A12.r, RV.hasE_eq A3.r, ← hfin]
      show (σ2.edges.contains key' && _) = (σ2.edges.contains key' && _)
      cases hc : σ2.edges.contains key' with
      | false => rfl
      | true =>
        have hhas : key'.has n = false := by
          cases hh : key'.has n with
          | false => rfl
          | true => rw [← hσ2, Spec.contains_dropEdges, hh] at hc; simp at hc
        have hp : Spec.placeOf { σ2 with nodes := σ2.nodes.erase n } key' = σ2.placeOf key' := by
          simp only [EdgeKey.has, Bool.or_eq_false_iff, beq_eq_false_iff_ne] at hhas
          simp only [Spec.placeOf, Spec.key?, OMap.find?_erase]
          rw [if_neg (Ne.symm hhas.1), if_neg (Ne.symm hhas.2)]
        rw [hp]
  cases b with
  | static l =>
    simp only [bridgeIn, Res.ok.injEq] at hb1
    subst hb1
    rw [fold_static] at e2
    have e3 : ∃ l2, foldRes (fun l t => (l.removeEdge n t) >>= fun r => .ok r.1) l (σ.mkNode n i).siblings.keys = .ok l2 ∧ b2 = .static l2 := by
      cases hq : foldRes (fun l t => (l.removeEdge n t) >>= fun r => .ok r.1) l (σ.mkNode n i).siblings.keys with
      | ub => rw [hq] at e2; simp at e2
      | throw x => rw [hq] at e2; simp at e2
      | ok l2 => rw [hq] at e2; simp at e2; exact ⟨l2, rfl, e2.symm⟩
    obtain ⟨l2, e3, rfl⟩ := e3
    refine ⟨.static { l2 with nodes := l2.nodes.erase n, status := l2.status.insert n .deleted }, ?_, ?_⟩
    · have hnd' : l.nodes.find? n = some (σ.mkNode n i) := hnd
      simp [BaseLayer.removeNode, Layer.removeNode, hnd', e3]
    · refine key _ ?_ ?_ ?_ rfl ?_
      · cases hk : i.key with
        | static l' => trivial
        | dyn l' p' => rw [hk] at f2; exact f2.elim
      · intro m; simp [BaseLayer.nd, OMap.find?_erase]
      · intro m; simp [BaseLayer.nst, OMap.find?_insert]
      · cases hk : i.key with
        | static l' => rw [hk] at hinf2; exact hinf2
        | dyn l' p' => rw [hk] at f2; exact f2.elim
  | dyn d =>
    simp only [bridgeIn] at hb1
    have hk : ∃ l' p', i.key = .dyn l' p' := by
      have hf := Graph.fits_of_layerAt? hb
      cases hk : i.key with
      | static l' => rw [hk] at hf; exact hf.elim
      | dyn l' p' => exact ⟨l', p', rfl⟩
    obtain ⟨l', p', hk⟩ := hk
    obtain ⟨d1, hd1, rfl⟩ : ∃ d1, (if d.hasNode (n - 1) && (σ.mkNode n i).siblings.contains (n - 1) &&
            (d.hasNode (n + 1) && (σ.mkNode n i).siblings.contains (n + 1)) then do
              let r ← d.insertEdge (n - 1) (n + 1) none
              pure r.1
            else pure d : Res DynLayer) = .ok d1 ∧ b1 = .dyn d1 := by
      generalize hX : (if d.hasNode (n - 1) && (σ.mkNode n i).siblings.contains (n - 1) &&
            (d.hasNode (n + 1) && (σ.mkNode n i).siblings.contains (n + 1)) then do
              let r ← d.insertEdge (n - 1) (n + 1) none
              pure r.1
            else pure d : Res DynLayer) = X at hb1
      cases X with
      | ub => cases hb1
      | throw x => cases hb1
      | ok d1 => simp at hb1; exact ⟨d1, rfl, hb1.symm⟩
    rw [fold_dyn] at e2
    obtain ⟨d2, e3, rfl⟩ : ∃ d2, foldRes (fun l t => (l.removeEdge n t) >>= fun r => .ok r.1) d1 (σ.mkNode n i).siblings.keys = .ok d2 ∧ b2 = .dyn d2 := by
      cases hq : foldRes (fun l t => (l.removeEdge n t) >>= fun r => .ok r.1) d1 (σ.mkNode n i).siblings.keys with
      | ub => rw [hq] at e2; simp at e2
      | throw x => rw [hq] at e2; simp at e2
      | ok l2 => rw [hq] at e2; simp at e2; exact ⟨l2, rfl, e2.symm⟩
    have hinf0 : infoOk (BaseLayer.info (.dyn d)) σ i.key := h.info i.key _ (by simp [Graph.view, hb])
    rw [hk] at hinf0 hinf2
    obtain ⟨-, u2, -⟩ := hinf0
    obtain ⟨w1, w2, w3, w4, w6, w5⟩ := hinf2
    simp only [BaseLayer.info] at u2 w1 w2 w3 w4 w5
    obtain ⟨hm, hslot⟩ := BaseLayer.nd_dyn_lt hnd
    obtain ⟨hm2, hslot2⟩ := BaseLayer.nd_dyn_lt hnd2
    have hsd := (hw.dyn n i l' p' hn hk).2.2
    obtain ⟨st, hst⟩ := Option.isSome_iff_exists.1 hsd
    have hpre : d2.pre = d.pre := by rw [w2, u2]
    rw [hpre] at hslot2 hm2
    have hhas : d.hasNode n = true := by
      have h1 := BaseLayer.hasNode_eq (h.blive hb) n
      simp only [BaseLayer.hasNode] at h1
      rw [h1, hnd]; rfl
    refine ⟨.dyn { d2 with status := d2.status.insert (d.pre.index n) .deleted, times := d2.times.erase st, nodes := d2.nodes.set (d.pre.index n) none }, ?_, ?_⟩
    · simp only [BaseLayer.removeNode, DynLayer.removeNode, hhas, Bool.not_true, Bool.false_eq_true, if_false, hslot, Res.at?_some,
        Res.deref_some, Res.bind_ok]
      have hstamp : (σ2.mkNode n i).timestamp = some st := hst
      split at hd1
      · rename_i hcnd
        rw [if_pos hcnd]
        cases hq : d.insertEdge (n - 1) (n + 1) none with
        | ub => rw [hq] at hd1; cases hd1
        | throw x => rw [hq] at hd1; cases hd1
        | ok r =>
          rw [hq] at hd1
          simp only [Res.bind_ok, Res.pure_eq, Res.ok.injEq] at hd1
          simp only [Res.bind_ok, Res.pure_eq, hd1, e3, hslot2, Res.at?_some, Res.deref_some, hstamp]
      · rename_i hcnd
        rw [if_neg hcnd]
        simp only [Res.pure_eq, Res.ok.injEq] at hd1
        subst hd1
        simp only [Res.bind_ok, Res.pure_eq, e3, hslot2, Res.at?_some, Res.deref_some, hstamp]
    · refine key _ ?_ ?_ ?_ rfl ?_
      · rw [hk]; trivial
      · intro m
        have hlt : d.pre.index n < d2.nodes.length := by
          rcases Nat.lt_or_ge (d.pre.index n) d2.nodes.length with h' | h'
          · exact h'
          · rw [List.getElem?_eq_none h'] at hslot2; cases hslot2
        simp only [BaseLayer.nd, hpre]
        by_cases e : n = m
        · subst e; simp [hlt]
        · simp only [e, if_false]
          by_cases hm' : d.pre.isMatch m = true
          · have : d.pre.index n ≠ d.pre.index m := fun e' => e (Prefix.eq_of_index hm hm' e')
            simp [hm', List.getElem?_set_ne this]
          · simp [hm']
      · intro m
        simp only [BaseLayer.nst, hpre, OMap.find?_insert]
        by_cases e : n = m
        · subst e; simp [hm]
        · simp only [e, if_false]
          by_cases hm' : d.pre.isMatch m = true
          · have : d.pre.index n ≠ d.pre.index m := fun e' => e (Prefix.eq_of_index hm hm' e')
            simp [hm', this]
          · simp [hm']
      · rw [hk]
        refine ⟨w1, w2, w3, by simp only [BaseLayer.info, List.length_set]; exact w4, ?_, ?_⟩
        · intro j hj
          have hj' : ((d2.status.insert (d.pre.index n) .deleted).find? j).isSome = true := hj
          rw [OMap.find?_insert] at hj'
          by_cases e : d.pre.index n = j
          · rw [← e]; exact Prefix.index_lt _ _
          · rw [if_neg e] at hj'; exact w6 j hj'
        intro t
        simp only [BaseLayer.info, OMap.contains_erase, w5]
        rw [Bool.eq_iff_iff]
        simp only [Bool.and_eq_true, Bool.not_eq_true', decide_eq_false_iff_not, Spec.hasStamp_iff]
        constructor
        · rintro ⟨ht, m', j, h1, h2, h3⟩
          refine ⟨m', j, ?_, h2, h3⟩
          simp only [OMap.find?_erase]
          rw [if_neg]
          · exact h1
          · rintro rfl
            rw [hn2] at h1; cases h1
            rw [hst] at h3; cases h3; exact ht rfl
        · rintro ⟨m', j, h1, h2, h3⟩
          simp only [OMap.find?_erase] at h1
          split at h1
          · cases h1
          · rename_i hne
            refine ⟨?_, m', j, h1, h2, h3⟩
            rintro rfl
            exact hne (hw2.stamps n m' i j l' p' hn2 h1 hk h2 (by rw [hst, h3]))

theorem SWF.bridge (hw : SWF σ) (n : NodeId) : SWF (σ.bridge n) := by
  unfold Spec.bridge
  split
  · split
    · rename_i l p hk hc
      refine hw.addEdge ?_ ?_ (NodeId.pred_ne_succ n) _
      · rw [Spec.contains_of_key?, hc.1]; rfl
      · rw [Spec.contains_of_key?, hc.2.1]; rfl
    · exact hw
  · exact hw

theorem SWF.dropNode (hw : SWF σ) (n : NodeId) : SWF (σ.dropNode n) where
  edge key e h := by
    simp only [Spec.dropNode, OMap.find?_filter] at h
    rw [Option.filter_eq_some_iff] at h
    obtain ⟨h1, h2⟩ := h
    obtain ⟨q1, q2, q3, q4⟩ := hw.edge key e h1
    refine ⟨q1, q2, ?_, ?_⟩
    · simp only [Spec.dropNode, OMap.contains_erase, q3, Bool.and_true, Bool.not_eq_true', decide_eq_false_iff_not]
      rintro rfl
      rw [q1, EdgeKey.has_of_left] at h2; cases h2
    · simp only [Spec.dropNode, OMap.contains_erase, q4, Bool.and_true, Bool.not_eq_true', decide_eq_false_iff_not]
      rintro rfl
      rw [q1, EdgeKey.has_of_right] at h2; cases h2
  node m i h := by
    simp only [Spec.dropNode, OMap.find?_erase] at h
    split at h
    · cases h
    · rw [hasKey_congr (σ := σ) (σ' := σ.dropNode n) rfl rfl]; exact hw.node m i h
  dyn m i l p h := by
    simp only [Spec.dropNode, OMap.find?_erase] at h
    split at h
    · cases h
    · exact hw.dyn m i l p h
  stamps n1 m1 i j l p h1 h2 := by
    simp only [Spec.dropNode, OMap.find?_erase] at h1 h2
    split at h1
    · cases h1
    · split at h2
      · cases h2
      · exact hw.stamps n1 m1 i j l p h1 h2
  marks := hw.marks

theorem SWF.removeNode (hw : SWF σ) (n : NodeId) : SWF (σ.removeNode n).1 := by
  simp only [Spec.removeNode]
  split
  · exact (hw.bridge n).dropNode n
  · exact hw

theorem R.removeNode (h : R g σ) (hw : SWF σ) {n : NodeId} (hc : σ.noCross n) :
    ∃ g', g.removeNode n = .ok (g', (σ.removeNode n).2) ∧ Adv .deleted g.view g'.view (σ.removeNode n).1 := by
  simp only [Graph.removeNode, h.lookup']
  cases hn : σ.nodes.find? n with
  | none =>
    have hk : σ.key? n = none := by simp [Spec.key?, hn]
    exact ⟨g, by simp [hk, Spec.removeNode, OMap.contains, hn], by simpa [Spec.removeNode, OMap.contains, hn] using Adv.refl _ h⟩
  | some i =>
    have hk := Spec.key?_eq hn
    have hcont : σ.nodes.contains n = true := by simp [OMap.contains, hn]
    have hnode := RV.node_of h hn
    simp only [hk, Graph.getNodePtr_ok hnode (h.kok hw hk), Res.bind_ok, Res.deref_some]
    -- children
    let PC : LayerKey → Bool := fun k' => decide (k'.layer < i.key.layer)
    let PP : LayerKey → Bool := fun k' => decide (i.key.layer < k'.layer)
    have hPC : ∀ k, PC k = true → k ≠ i.key := by rintro k h1 rfl; simp [PC] at h1
    have hPP : ∀ k, PP k = true → k ≠ i.key := by rintro k h1 rfl; simp [PP] at h1
    obtain ⟨g1, e1, A1⟩ := h.dropInter hw hn PC hPC .deleted
    have e1' : foldRes (fun g t => g.removeInterlayerEdge' n t) g (σ.mkNode n i).children.keys = .ok g1 := e1
    have hw1 := hw.dropEdges (σ.rel n PC)
    generalize hσ1 : σ.dropEdges (σ.rel n PC) = σ1 at *
    have hn1 : σ1.nodes.find? n = some i := by rw [← hσ1]; exact hn
    have hnode1 := RV.node_of A1.r hn1
    simp only [e1', Res.bind_ok, Graph.getNodePtr_ok hnode1 (R.kok (g := g1) A1.r hw1 (Spec.key?_eq hn1)), Res.deref_some]
    obtain ⟨g2, e2, A2⟩ := R.dropInter (g := g1) A1.r hw1 hn1 PP hPP .deleted
    have e2' : foldRes (fun g t => g.removeInterlayerEdge' n t) g1 (σ1.mkNode n i).parents.keys = .ok g2 := e2
    simp only [e2', Res.bind_ok]
    have hw2 := hw1.dropEdges (σ1.rel n PP)
    have hkeys : ∀ m, σ1.key? m = σ.key? m := fun m => by rw [← hσ1]; rfl
    have hcontE : ∀ key, (σ1.dropEdges (σ1.rel n PP)).edges.contains key =
        (σ.edges.contains key && !σ.rel n PC key && !σ.rel n PP key) := by
      intro key
      rw [Spec.contains_dropEdges, ← hσ1, Spec.contains_dropEdges]; rfl
    have A12 := Adv.trans h A1 A2 hkeys (fun _ => rfl) (by
      intro key
      rw [hcontE, ← hσ1, Spec.contains_dropEdges]
      cases σ.edges.contains key with
      | false => simp
      | true =>
        have : σ.rel n PC key = true → σ.rel n PP key = false := by
          simp only [Spec.rel, PC, PP, Bool.and_eq_true]
          rintro ⟨h1, h2⟩
          cases hko : σ.key? (key.other n) with
          | none => simp
          | some k' =>
            rw [hko] at h2
            simp only [Option.any_some, decide_eq_true_eq] at h2
            simp only [Option.any_some, h1, Bool.true_and, decide_eq_false_iff_not]
            intro h3
            exact absurd (UInt64.lt_iff_toNat_lt.1 h2) (by have := UInt64.lt_iff_toNat_lt.1 h3; omega)
        cases h1 : σ.rel n PC key with
        | true => simp
        | false => simp)
    generalize hσ2 : σ1.dropEdges (σ1.rel n PP) = σ2 at *
    have hn2 : σ2.nodes.find? n = some i := by rw [← hσ2]; exact hn1
    have hkeys2 : ∀ m, σ2.key? m = σ.key? m := fun m => by rw [← hσ2]; exact hkeys m
    have hhas2 : ∀ a b, σ2.hasEdge a b = (σ.hasEdge a b && !σ.rel n PC (EdgeKey.of a b) && !σ.rel n PP (EdgeKey.of a b)) :=
      fun a b => hcontE _
    have hE2 : ∀ m, σ2.hasEdge n m = true → σ2.key? m = some i.key := by
      intro m hm
      rw [hhas2, Spec.rel_of, Spec.rel_of] at hm
      simp only [Bool.and_eq_true, Bool.not_eq_true'] at hm
      obtain ⟨⟨m1, m2⟩, m3⟩ := hm
      rw [hkeys2, ← hk]
      have hmn := (hw.hasEdge_nodes m1).2.2
      rw [Spec.contains_of_key?] at hmn
      obtain ⟨km, hkm⟩ := Option.isSome_iff_exists.1 hmn
      rw [hkm] at m2 m3
      apply hc m m1
      rw [hkm, hk]
      simp only [Option.any_some, PC, PP, decide_eq_false_iff_not] at m2 m3
      simp only [Option.map_some, Option.some.injEq]
      rcases layer_cases km.layer i.key.layer with ⟨q, _, _⟩ | ⟨q, _, _⟩ | ⟨q, _, _⟩
      · exact absurd q m2
      · exact absurd q m3
      · exact q
    obtain ⟨b2, hb2⟩ := R.layerAt? (g := g2) A12.r hw2 (Spec.key?_eq hn2)
    obtain ⟨b3, e3, A3⟩ := R.layerRemove (g := g2) A12.r hw2 hn2 hE2 hb2
    simp only [Graph.layerFromKey_eq hb2, Res.bind_ok, e3]
    refine ⟨{ g2.setLayer i.key b3 with lookup := (g2.setLayer i.key b3).lookup.erase n }, ?_, ?_⟩
    · simp [Spec.removeNode, hcont]
    · rw [Graph.lookup_setLayer]
      have hσb : (σ.bridge n = σ ∧ σ2.bridge n = σ2) ∨
          (σ.bridge n = σ.addEdge (n - 1) (n + 1) {} ∧ σ2.bridge n = σ2.addEdge (n - 1) (n + 1) {}) := by
        have hpm : ∀ m k, σ.key? m = some k → k = i.key → σ2.hasEdge n m = σ.hasEdge n m := by
          intro m k hm hk'
          subst hk'
          rw [hhas2, Spec.rel_of, Spec.rel_of, hm]
          simp [PC, PP]
        have hpp : σ2.hasEdge (n - 1) (n + 1) = σ.hasEdge (n - 1) (n + 1) := by
          rw [hhas2, Spec.rel, Spec.rel, EdgeKey.has_ne (NodeId.pred_ne n) (NodeId.succ_ne n)]; simp
        unfold Spec.bridge
        simp only [hkeys2, hk]
        cases hki : i.key with
        | static l => simp
        | dyn l p =>
          simp only [hpp]
          by_cases hcnd : σ.key? (n - 1) = some (.dyn l p) ∧ σ.key? (n + 1) = some (.dyn l p) ∧
              σ.hasEdge n (n - 1) = true ∧ σ.hasEdge n (n + 1) = true ∧ σ.hasEdge (n - 1) (n + 1) = false
          · right
            rw [if_pos hcnd, hpm _ _ hcnd.1 hki.symm, hpm _ _ hcnd.2.1 hki.symm, if_pos hcnd]
            exact ⟨rfl, rfl⟩
          · left
            rw [if_neg hcnd, if_neg]
            · exact ⟨rfl, rfl⟩
            rintro ⟨q1, q2, q3, q4, q5⟩
            exact hcnd ⟨q1, q2, (hpm _ _ q1 hki.symm) ▸ q3, (hpm _ _ q2 hki.symm) ▸ q4, q5⟩
      have hfind2 : ∀ key, σ2.edges.find? key = if σ.rel n PC key || σ.rel n PP key then none else σ.edges.find? key := by
        intro key
        rw [← hσ2, Spec.find?_dropEdges, ← hσ1, Spec.find?_dropEdges]
        show (if σ.rel n PP key then _ else _) = _
        cases σ.rel n PC key <;> cases σ.rel n PP key <;> simp
      have hfin : (σ2.bridge n).dropNode n = (σ.bridge n).dropNode n := by
        have h2 : σ2 = { σ with edges := σ2.edges } := by rw [← hσ2, ← hσ1]; rfl
        have hd : ∀ key, key.has n = false → σ2.edges.find? key = σ.edges.find? key := by
          intro key hh; rw [hfind2]; simp [Spec.rel, hh]
        have hm : σ2.marks = σ.marks := by rw [h2]
        have hs : σ2.mesh = σ.mesh := by rw [h2]
        have hl : σ2.layerIds = σ.layerIds := by rw [h2]
        have hdy : σ2.dyn = σ.dyn := by rw [h2]
        have hno : σ2.nodes = σ.nodes := by rw [h2]
        have hcase : ∀ τ : Spec, ∀ τ' : Spec, τ.layerIds = τ'.layerIds → τ.dyn = τ'.dyn → τ.nodes = τ'.nodes → τ.marks = τ'.marks →
            τ.mesh = τ'.mesh → (∀ key, key.has n = false → τ.edges.find? key = τ'.edges.find? key) → τ.dropNode n = τ'.dropNode n := by
          intro τ τ' a1 a2 a3 a4 a5 a6
          apply Spec.ext' <;> simp only [Spec.dropNode, a1, a2, a3, a4, a5]
          apply OMap.ext; intro key
          simp only [OMap.find?_filter]
          cases hh : key.has n with
          | false => rw [a6 key hh]
          | true =>
            have : ∀ o : Option EdgeInfo, o.filter (fun _ => !true) = none := by intro o; cases o <;> simp
            rw [this, this]
        rcases hσb with ⟨b1, b2⟩ | ⟨b1, b2⟩
        · rw [b1, b2]; exact hcase _ _ hl hdy hno hm hs hd
        · rw [b1, b2]
          refine hcase _ _ hl hdy hno hm hs ?_
          intro key hk'
          simp only [Spec.addEdge, OMap.find?_insert, hd key hk']
      rw [hfin] at A3
      have hsp : (σ.removeNode n).1 = (σ.bridge n).dropNode n := by simp [Spec.removeNode, hcont]
      rw [hsp]
      refine ⟨A3.r, A12.nlog.trans A3.nlog ?_, A12.elog.trans A3.elog ?_⟩
      · intro k m; left; rw [RV.hasN_eq h, RV.hasN_eq A12.r, hkeys2]
      · intro c key
        rw [RV.hasE_eq h, RV.hasE_eq A12.r, RV.hasE_eq A3.r, Spec.placeOf_congr hkeys2]
        cases hh : key.has n with
        | false =>
          left
          have : σ2.edges.contains key = σ.edges.contains key := by
            rw [hcontE]; simp [Spec.rel, hh]
          rw [this]
        | true =>
          have hz : ((σ.bridge n).dropNode n).edges.contains key = false := by
            simp only [Spec.dropNode, OMap.contains, OMap.find?_filter, hh]
            cases (σ.bridge n).edges.find? key <;> simp
          rw [hz, hcontE]
          cases hr : (!σ.rel n PC key && !σ.rel n PP key) with
          | true => left; simp only [Bool.and_assoc, hr, Bool.and_true]
          | false => right; simp only [Bool.and_assoc, hr, Bool.and_false, Bool.false_and]

end
end Verif
