import Verif.Lemmas.Mem7
import Verif.Lemmas.Mem4
import Verif.Lemmas.JsonSafe
/-!
# Every history, careless or not: one call
-/

namespace Verif
open Res (Sat Keeps)

theorem Res.Sat.and_keeps {α : Type} {P Q : α → Prop} {r : Res α} (h : Sat P r) (h' : Keeps Q r) : Sat (fun a => P a ∧ Q a) r := by
  cases r with
  | ok a => exact ⟨h, h'.get a rfl⟩
  | throw e => trivial
  | ub => exact h

namespace Graph.Tame
variable {A : LayerId → Prefix → Prop} {F : Prop} {N : Nat} {g : Graph}

theorem weaken (h : g.Tame A N F) {F' : Prop} (hF : F' → F) : g.Tame A N F' :=
  ⟨fun l x hx => ⟨(h.stat l x hx).attrs, (h.stat l x hx).full.weaken hF⟩,
   fun l p d hd => ⟨(h.dyn l p d hd).attrs, (h.dyn l p d hd).full.weaken hF, (h.dyn l p d hd).count⟩,
   h.inter.weaken hF, h.dynInter.weaken hF⟩

theorem viewFull (h : g.Tame A N F) (hF : F) : g.view.Full := by
  intro c k e he
  cases c with
  | across b => cases b
                · exact h.inter.full hF k e he
                · exact h.dynInter.full hF k e he
  | within k' =>
    simp only [Graph.view, Graph.ecAt?] at he
    cases k' with
    | static l =>
      simp only [Graph.layerAt?] at he
      cases hq : g.layers.find? l with
      | none => rw [hq] at he; simp at he
      | some x => rw [hq] at he; exact (h.stat l x hq).full.full hF k e he
    | dyn l p =>
      simp only [Graph.layerAt?] at he
      cases hq : g.dynLayer? l p with
      | none => rw [hq] at he; simp at he
      | some x => rw [hq] at he; exact (h.dyn l p x hq).full.full hF k e he

theorem visitNodes (h : g.Tame A N F) (F' : BaseLayer → BaseLayer × List NodeId) (f : Layer → Layer) (f' : DynLayer → DynLayer)
    (e : ∀ l, (F' (.static l)).1 = .static (f l)) (e' : ∀ d, (F' (.dyn d)).1 = .dyn (f' d)) (hf : ∀ l, (f l).nodes = l.nodes ∧ (f l).edges = l.edges)
    (hf' : ∀ d, (f' d).nodes = d.nodes ∧ (f' d).edges = d.edges ∧ (f' d).next = d.next) : (g.visitLayers F').1.Tame A N F := by
  refine h.map f f' ?_ ?_ (.refl _) (.refl _) (fun l => ⟨(hf l).1, by rw [(hf l).2]; exact .refl _⟩) (fun d => ⟨(hf' d).1, by rw [(hf' d).2.1]; exact .refl _, (hf' d).2.2⟩)
  · simp only [visitLayers, e]
  · simp only [visitLayers, e']

theorem visitEdges (h : g.Tame A N F) (f : EdgeContainer → EdgeContainer) {g' : Graph} (hf : ∀ c : EdgeContainer, c.Tidied (f c))
    (e1 : g'.layers = g.layers.map (fun _ l => { l with edges := f l.edges }))
    (e2 : g'.dyns = g.dyns.map (fun _ m => m.map (fun _ d => { d with edges := f d.edges }))) (e3 : g'.inter = f g.inter)
    (e4 : g'.dynInter = f g.dynInter) : g'.Tame A N F :=
  h.map (fun l => { l with edges := f l.edges }) (fun d => { d with edges := f d.edges }) e1 e2 (by rw [e3]; exact hf _) (by rw [e4]; exact hf _)
    (fun _ => ⟨rfl, hf _⟩) (fun _ => ⟨rfl, hf _, rfl⟩)

end Graph.Tame

namespace Graph
variable {A : LayerId → Prefix → Prop} {F : Prop} {N : Nat} {g : Graph}

theorem ans_sat {P : Graph → Prop} {r : Res (Graph × Bool)} (h : Sat (fun x => P x.1) r) : Sat (fun x => P x.1) (ans r) :=
  h.bind (fun _ h => h)

/-- One call. -/
theorem safe_step (h : MV g.view) (hT : g.Tame A N F) (hN : N < 2 ^ 32) (op : Op)
    (happ : ∀ l p t a k, op = .emplaceDyn l p t a k → A l p) (hprev : ∀ l n t a, op = .emplacePrev l n t a → ¬ A l (Prefix.fromId n))
    (hadd : ∀ l n a t, op = .addOrUpdateNode l n a (some t) → ¬ A l (Prefix.fromId n))
    (hm : ∀ f t, op = .mergeNodes f t → F ∧ ∀ l p, f ≠ t → g.lookup.find? f = some (.dyn l p) → g.lookup.find? t = some (.dyn l p) →
      (g.layers.find? l).isSome = true) :
    Sat (fun r => MV r.1.view ∧ r.1.Tame A (N + 1) (F ∧ ∀ s t, op ≠ .addOrUpdateEdge s t none)) (g.step op) := by
  have hT' : g.Tame A (N + 1) (F ∧ ∀ s t, op ≠ .addOrUpdateEdge s t none) := (hT.mono (Nat.le_succ _)).weaken (fun h => h.1)
  have hW : g.Tame A N (F ∧ ∀ s t, op ≠ .addOrUpdateEdge s t none) := hT.weaken (fun h => h.1)
  cases op with
  | clear => exact ⟨Rd.mv_clear g, hT'.clear g.layerIds⟩
  | reset ids => exact ⟨Rd.mv_clear _, hT'.clear ids⟩
  | createDyn l p => exact ⟨createDynamicLayer_mv h l p, hT'.create l p⟩
  | emplaceNode l n a => exact ⟨emplaceNode_mv h l n _, hT'.emplaceNode l n a⟩
  | insertNode l n st a => exact ⟨insertNode_mv h n l st _, hT'.insertNode n l st a⟩
  | emplaceDyn l p t a k =>
    refine ans_sat (P := fun g => MV g.view ∧ g.Tame _ _ _) ((emplaceDyn_sat h l p t _ k ?_).and_keeps (hW.emplaceDyn l p t a k))
    intro d hd
    obtain ⟨c1, c2⟩ := (hT.dyn l p d hd).count (happ l p t a k rfl)
    exact ⟨c1, Nat.lt_of_le_of_lt c2 hN⟩
  | emplacePrev l n t a =>
    exact ans_sat (P := fun g => MV g.view ∧ g.Tame _ _ _) ((emplacePrev_sat h l n t _).and_keeps (hT'.emplacePrev l n t a (hprev l n t a rfl)))
  | addOrUpdateNode l n a st =>
    refine ans_sat (P := fun g => MV g.view ∧ g.Tame _ _ _) ((addOrUpdateNode_sat h l n _ st).and_keeps (hT'.addOrUpdateNode l n a st ?_))
    intro hs
    obtain ⟨t, rfl⟩ := Option.isSome_iff_exists.1 hs
    exact hadd l n a t rfl
  | setNodeAttrs n a =>
    exact ans_sat (P := fun g => MV g.view ∧ g.Tame _ _ _) ((setNodeAttributes_sat h n _).and_keeps (hT'.setNodeAttributes n a))
  | insertEdge s t i =>
    exact ans_sat (P := fun g => MV g.view ∧ g.Tame _ _ _) ((insertEdge_sat h s t i).and_keeps (hT'.insertEdge s t i))
  | insertParentEdge s t i =>
    exact ans_sat (P := fun g => MV g.view ∧ g.Tame _ _ _) ((insertParentEdge_sat h s t i).and_keeps (hT'.insertParentEdge s t i))
  | addOrUpdateEdge s t i =>
    refine ans_sat (P := fun g => MV g.view ∧ g.Tame _ _ _) ((addOrUpdateEdge_sat h s t i).and_keeps (hT'.addOrUpdateEdge s t ?_))
    intro hF
    cases i with
    | none => exact (hF.2 s t rfl).elim
    | some a => rfl
  | setEdgeAttrs s t a =>
    exact ans_sat (P := fun g => MV g.view ∧ g.Tame _ _ _) ((setEdgeAttributes_sat h s t _).and_keeps (hT'.setEdgeAttributes s t (fun _ => rfl)))
  | findEdge s t =>
    have key : Keeps (fun r : Graph × Option Edge => r.1.Tame A (N + 1) (F ∧ ∀ s' t', Op.findEdge s t ≠ .addOrUpdateEdge s' t' none)) (g.findEdge s t) :=
      Keeps.skip (fun ks => Keeps.skip (fun kt => hT'.findEdgeIn s t ks kt))
    exact ((findEdge_sat h s t).and_keeps key).bind (fun _ h => h)
  | removeNode n => exact ans_sat (P := fun g => MV g.view ∧ g.Tame _ _ _) ((removeNode_sat h n).and_keeps (hT'.removeNode n))
  | removeEdge s t => exact ans_sat (P := fun g => MV g.view ∧ g.Tame _ _ _) ((removeEdge_sat h s t).and_keeps (hT'.removeEdge s t))
  | mergeNodes f t =>
    obtain ⟨m1, m2⟩ := hm f t rfl
    exact ans_sat (P := fun g => MV g.view ∧ g.Tame _ _ _)
      (((mergeNodes_sat h (hT.viewFull m1) f t m2).mono (fun _ h => h.1)).and_keeps (hT'.mergeNodes f t))
  | setMesh m => exact ⟨show MV (g.setMesh m).view from h.congr rfl rfl (fun _ _ => rfl) h.info (fun _ _ _ e => e), hT'.of_fields rfl rfl rfl rfl⟩
  | markStale => exact ⟨markEdgesAsStale_mv h, hT'.visitEdges EdgeContainer.setStale EdgeContainer.tidied_setStale rfl rfl rfl rfl⟩
  | sweep =>
    exact ((removeAllStaleEdges_sat h).and_keeps hT'.removeAllStaleEdges).bind (fun _ h => h)
  | newNodes c =>
    exact ⟨getNewNodes_mv h c, hT'.visitNodes (fun b => b.getNewNodes c) (fun l => (l.getNewNodes c).1) (fun d => (d.getNewNodes c).1) (fun _ => rfl) (fun _ => rfl)
      (fun _ => ⟨rfl, rfl⟩) (fun _ => ⟨rfl, rfl, rfl⟩)⟩
  | removedNodes c =>
    exact ⟨getRemovedNodes_mv h c, hT'.visitNodes (fun b => b.getRemovedNodes c) (fun l => (l.getRemovedNodes c).1) (fun d => (d.getRemovedNodes c).1) (fun _ => rfl) (fun _ => rfl)
      (fun _ => ⟨rfl, rfl⟩) (fun _ => ⟨rfl, rfl, rfl⟩)⟩
  | newEdges c => exact ⟨getNewEdges_mv h c, hT'.visitEdges (fun e => (e.getNew c).1) (fun e => e.tidied_getNew c) rfl rfl rfl rfl⟩
  | removedEdges c => exact ⟨getRemovedEdges_mv h c, hT'.visitEdges (fun e => (e.getRemoved c).1) (fun e => e.tidied_getRemoved c) rfl rfl rfl rfl⟩

/-- A history. `U` is what the earlier calls have done. -/
theorem safe_run (ops : List Op) (h : MV g.view) (hT : g.Tame A N F) (hN : N + ops.length ≤ 2 ^ 32)
    (happ : ∀ l p t a k, .emplaceDyn l p t a k ∈ ops → A l p) (hprev : ∀ l n t a, .emplacePrev l n t a ∈ ops → ¬ A l (Prefix.fromId n))
    (hadd : ∀ l n a t, .addOrUpdateNode l n a (some t) ∈ ops → ¬ A l (Prefix.fromId n))
    (hm : ∀ pre f t post, ops = pre ++ .mergeNodes f t :: post → (F ∧ ∀ s t, .addOrUpdateEdge s t none ∉ pre) ∧
      ∀ g' outs, g.run pre = .ok (g', outs) → ∀ l p, f ≠ t → g'.lookup.find? f = some (.dyn l p) → g'.lookup.find? t = some (.dyn l p) →
      (g'.layers.find? l).isSome = true) :
    Sat (fun r => MV r.1.view ∧ r.1.Tame A (N + ops.length) (F ∧ ∀ s t, .addOrUpdateEdge s t none ∉ ops)) (g.run ops) := by
  induction ops generalizing g N F with
  | nil => exact ⟨h, hT.weaken (fun h => h.1)⟩
  | cons op ops ih =>
    have hlen : N + 1 + ops.length = N + (op :: ops).length := by simp only [List.length_cons]; omega
    refine Sat.bind (P := fun r => (MV r.1.view ∧ r.1.Tame A (N + 1) (F ∧ ∀ s t, op ≠ .addOrUpdateEdge s t none)) ∧ g.step op = .ok r) ?_ ?_
    · have hs := safe_step h hT (by simp only [List.length_cons] at hN; omega) op (fun l p t a k e => happ l p t a k (e ▸ List.mem_cons_self))
        (fun l n t a e => hprev l n t a (e ▸ List.mem_cons_self)) (fun l n a t e => hadd l n a t (e ▸ List.mem_cons_self)) ?_
      · exact hs.and_keeps ⟨fun _ e => e⟩
      · intro f t e
        obtain ⟨m1, m2⟩ := hm [] f t ops (by rw [e]; rfl)
        exact ⟨m1.1, m2 g [] rfl⟩
    · rintro r ⟨⟨h1, h2⟩, hr⟩
      have := ih h1 h2 (by omega) (fun l p t a k e => happ l p t a k (List.mem_cons_of_mem _ e))
        (fun l n t a e => hprev l n t a (List.mem_cons_of_mem _ e)) (fun l n a t e => hadd l n a t (List.mem_cons_of_mem _ e)) ?_
      · refine this.bind (fun r' h' => ⟨h'.1, ?_⟩)
        rw [← hlen]
        refine h'.2.weaken (fun hF => ⟨⟨hF.1, fun s t e => hF.2 s t (e ▸ List.mem_cons_self)⟩, fun s t e => hF.2 s t (List.mem_cons_of_mem _ e)⟩)
      · intro pre f t post e
        obtain ⟨m1, m2⟩ := hm (op :: pre) f t post (by rw [e]; rfl)
        refine ⟨⟨⟨m1.1, fun s t e => m1.2 s t (e ▸ List.mem_cons_self)⟩, fun s t e => m1.2 s t (List.mem_cons_of_mem _ e)⟩, ?_⟩
        intro g' outs hrun
        refine m2 g' (r.2 :: outs) ?_
        simp only [Graph.run, hr, Res.bind_ok, hrun]

/-! ## Queries on a graph satisfying the invariants -/

theorem findNode_sat (h : MV g.view) (n : NodeId) :
    Sat (fun p => ∀ k, g.lookup.find? n = some k → ∃ x, p = some x ∧ g.view.node k n = some x) (g.findNode n) := by
  unfold findNode
  cases hq : g.lookup.find? n with
  | none => intro k e; cases e
  | some k =>
    refine (ptr_sat h.mw hq).mono ?_
    rintro p ⟨x, h1, h2⟩ k' e
    cases e
    exact ⟨x, h2, h1⟩

theorem layerFromKey_sat (g : Graph) (k : LayerKey) : Sat (fun b => g.layerAt? k = some b) (g.layerFromKey k) := by
  cases hq : g.layerFromKey k with
  | ok b => exact layerFromKey_iff.1 hq
  | throw e => trivial
  | ub =>
    exfalso
    cases k with
    | static l =>
      simp only [layerFromKey] at hq
      cases e : g.layers.find? l <;> simp [e, Res.at?] at hq
    | dyn l p =>
      simp only [layerFromKey] at hq
      cases e : g.dyns.find? l with
      | none => simp [e, Res.at?] at hq
      | some m => cases e' : m.find? p <;> simp [e, e', Res.at?] at hq

theorem checkNode_sat (g : Graph) (n : NodeId) : Sat (fun _ => True) (g.checkNode n) := by
  unfold checkNode
  cases hq : g.lookup.find? n with
  | none => trivial
  | some k =>
    refine (layerFromKey_sat g k).bind (fun b hb => ?_)
    cases b with
    | static l => trivial
    | dyn d =>
      show Sat _ (d.checkNode n)
      unfold DynLayer.checkNode
      split
      · trivial
      · exact Sat.at (fun _ _ => trivial)

theorem getPosition_sat (h : MV g.view) (hT : g.Tame A N F) (n : NodeId) : Sat (fun _ => True) (g.getPosition n) := by
  unfold getPosition
  cases hq : g.lookup.find? n with
  | none => trivial
  | some k =>
    refine (layerFromKey_sat g k).bind (fun b hb => ?_)
    have hlive := MV.blive h hb n
    cases b with
    | static l =>
      show Sat _ (l.getPosition n)
      unfold Layer.getPosition
      cases hx : l.nodes.find? n with
      | none => trivial
      | some x =>
        cases k with
        | dyn l p => simp [layerAt?] at hb
        | static lid =>
          have hl : g.layers.find? lid = some l := by simpa [layerAt?] using hb
          obtain ⟨a, ha⟩ := Option.isSome_iff_exists.1 ((hT.stat lid l hl).attrs n x hx)
          simp only [ha]
          trivial
    | dyn d =>
      show Sat _ (d.getPosition n)
      unfold DynLayer.getPosition
      split
      · trivial
      rename_i hn
      cases k with
      | static l => simp [layerAt?] at hb
      | dyn lid p =>
        have hl : g.dynLayer? lid p = some d := by simpa [layerAt?] using hb
        refine Sat.at? (fun q hq => ?_)
        simp only [DynLayer.hasNode, DynLayer.hasNodeByIndex] at hn
        simp only [BaseLayer.nst, BaseLayer.nd, hq, Option.join_some] at hlive
        by_cases hm : d.pre.isMatch n
        · simp only [hm, if_true, Bool.not_true, Bool.false_eq_true, if_false] at hn hlive
          cases q with
          | none =>
            exfalso
            cases hs : d.status.find? (d.pre.index n) with
            | none => simp [hs] at hn
            | some s => cases s <;> simp_all [NodeStatus.live]
          | some x =>
            obtain ⟨a, ha⟩ := Option.isSome_iff_exists.1 ((hT.dyn lid p d hl).attrs _ x hq)
            simp only [Res.deref_some, Res.bind_ok, ha]
            trivial
        · simp [hm] at hn

theorem hasEdge_sat (h : MV g.view) (s t : NodeId) : Sat (fun _ => True) (g.hasEdge s t) :=
  (hasEdgeKeys_sat h s t).bind (fun _ _ => trivial)

end Graph
end Verif
