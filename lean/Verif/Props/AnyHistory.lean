import Verif.Props.Misuse
import Verif.Lemmas.Mem8
import Verif.Spec.Intact
/-!
# C51, C52: memory safety and structure for histories that include misuse

A history ends at its first exception; a caller that catches one and goes on is the subject of C67.
-/

namespace Verif
open Res (Sat)

namespace AnyHistory

/-- The invariants after a careful history. -/
theorem exec_sat {ids : List LayerId} {ops : List Op} (h : Careful ids ops) :
    Sat (fun r => MV r.1.view ∧ r.1.Tame (fun l p => ∃ op ∈ ops, op.appendsTo = some (l, p)) ops.length
      (True ∧ ∀ s t, .addOrUpdateEdge s t none ∉ ops)) (Graph.exec ids ops) := by
  unfold Graph.exec
  refine Sat.bind (P := fun g => g = Graph.clear { layerIds := ids } ∧ Graph.create ids = .ok g) ?_ ?_
  · by_cases hi : ids = []
    · simp only [Graph.create, hi, if_true]; trivial
    · simp only [Graph.create, hi, if_false]; exact ⟨rfl, rfl⟩
  rintro g ⟨rfl, hc⟩
  have h0 : Graph.Tame (fun l p => ∃ op ∈ ops, op.appendsTo = some (l, p)) 0 True ({ layerIds := ids } : Graph) := by
    refine ⟨?_, ?_, ?_, ?_⟩
    · intro l x hx; simp at hx
    · intro l p d hd; simp [Graph.dynLayer?] at hd
    · exact .empty
    · exact .empty
  have := Graph.safe_run (A := fun l p => ∃ op ∈ ops, op.appendsTo = some (l, p)) (N := 0) (F := True) ops (Rd.mv_clear { layerIds := ids })
    (h0.clear ids) (by simpa using h.few) ?_ ?_ ?_ ?_
  · rw [Nat.zero_add] at this; exact this
  · intro l p t a k hm; exact ⟨_, hm, rfl⟩
  · rintro l n t a hm ⟨op, h1, h2⟩; exact h.unmixed op h1 _ hm _ h2 rfl
  · rintro l n a t hm ⟨op, h1, h2⟩; exact h.unmixed op h1 _ hm _ h2 rfl
  · intro pre f t post e
    have hg : ops[pre.length]? = some (.mergeNodes f t) := by rw [e]; simp
    have htake : ops.take pre.length = pre := by rw [e]; simp
    refine ⟨⟨trivial, fun s t hm => ?_⟩, ?_⟩
    · have := h.attrs _ _ _ hg _ (by rw [htake]; exact hm)
      cases this
    · intro g' outs hr l p hne h1 h2
      rcases h.merges _ _ _ hg g' outs (by rw [htake]; simp only [Graph.exec, hc, Res.bind_ok]; exact hr) with he | he
      · exact (hne he).elim
      · have := he l p h1 h2
        simpa [Graph.hasLayer, OMap.contains] using this

theorem sat_ne {α : Type} {P : α → Prop} {r : Res α} (h : Sat P r) : r ≠ .ub := by rintro rfl; exact h
theorem sat_ok {α : Type} {P : α → Prop} {r : Res α} (h : Sat P r) {a : α} (e : r = .ok a) : P a := by subst e; exact h

/-- The record behind a known node. -/
theorem found {g : Graph} (h : MV g.view) {n : NodeId} {k : LayerKey} {x : Node} (hn : g.lookup.find? n = some k)
    (hx : g.findNode n = .ok (some x)) : g.view.node k n = some x := by
  obtain ⟨y, h1, h2⟩ := sat_ok (Graph.findNode_sat h n) hx k hn
  cases h1; exact h2

theorem attrs_of_view {A : LayerId → Prefix → Prop} {F : Prop} {N : Nat} {g : Graph} (hT : g.Tame A N F) {n : NodeId} {k : LayerKey} {x : Node}
    (hx : g.view.node k n = some x) : x.attrs.isSome = true := by
  obtain ⟨b, hb, hnd⟩ := Graph.layerAt?_of_view_node hx
  cases k with
  | static l =>
    simp only [Graph.layerAt?, Option.map_eq_some_iff] at hb
    obtain ⟨y, hy, rfl⟩ := hb
    exact (hT.stat l y hy).attrs n x hnd
  | dyn l p =>
    simp only [Graph.layerAt?, Option.map_eq_some_iff] at hb
    obtain ⟨y, hy, rfl⟩ := hb
    exact (hT.dyn l p y hy).attrs _ x (BaseLayer.nd_dyn_lt hnd).2

/-- A known node of a static layer or of a trajectory with a plain prefix is found. -/
theorem finds {g : Graph} (h : MV g.view) {n : NodeId} {k : LayerKey} (hn : g.lookup.find? n = some k)
    (hp : ∀ l p, k = .dyn l p → p.plain = true) : ∃ x, g.findNode n = .ok (some x) := by
  obtain ⟨x, hx⟩ := Option.isSome_iff_exists.1 ((h.key n k).1 hn)
  obtain ⟨b, hb, hnd⟩ := Graph.layerAt?_of_view_node hx
  refine ⟨x, ?_⟩
  unfold Graph.findNode
  simp only [hn]
  cases k with
  | static l =>
    simp only [Graph.layerAt?, Option.map_eq_some_iff] at hb
    obtain ⟨y, hy, rfl⟩ := hb
    simp only [BaseLayer.nd] at hnd
    simp [Graph.getNodePtr, hy, hnd]
  | dyn l p =>
    have hb' := hb
    simp only [Graph.layerAt?, Option.map_eq_some_iff, Graph.dynLayer?, Option.bind_eq_some_iff] at hb
    obtain ⟨y, ⟨m, hm, hy⟩, rfl⟩ := hb
    obtain ⟨hpre, -⟩ := h.info l p (BaseLayer.info (.dyn y)) (by simp [Graph.view, hb'])
    have hpre : y.pre = p := hpre
    obtain ⟨hmat, hidx⟩ := BaseLayer.nd_dyn_lt hnd
    have hcat : (NodeSymbol.categoryId n).toNat = y.pre.index n := by
      rw [Prefix.categoryId_of_plain (p := p) (hp l p rfl) (by rw [← hpre]; exact hmat)]
      rfl
    simp [Graph.getNodePtr, hm, hy, hcat, hidx]

theorem hasNode_eq {b : BaseLayer} (h : b.Live) (n : NodeId) : b.hasNode n = (b.nd n).isSome := by
  cases b with
  | static l =>
    simp only [BaseLayer.hasNode, Layer.hasNode, BaseLayer.nd, OMap.contains]
  | dyn d =>
    rw [← h n]
    simp only [BaseLayer.hasNode, DynLayer.hasNode, DynLayer.hasNodeByIndex, BaseLayer.nst]
    by_cases hm : d.pre.isMatch n
    · simp only [hm, if_true, Bool.not_true, Bool.false_eq_true, if_false]
      cases hs : d.status.find? (d.pre.index n) with
      | none => rfl
      | some s => cases s <;> rfl
    · simp [hm, NodeStatus.live]

/-- A careful history, computably. -/
def check (ids : List LayerId) (ops : List Op) : Bool :=
  decide (ops.length ≤ 2 ^ 32) &&
  ops.all (fun a => ops.all (fun b => a.appendsTo.isNone || decide (b.fillsIn ≠ a.appendsTo))) &&
  (List.range ops.length).all (fun i => match ops[i]? with
    | some (.mergeNodes f t) => (ops.take i).all (fun op => !op.nullsEdge) && match Graph.exec ids (ops.take i) with
      | .ok (g, _) => decide (f = t) || (match g.getLayerForNode f with
        | some (.dyn l p) => decide (g.getLayerForNode t ≠ some (.dyn l p)) || g.hasLayer l
        | _ => true)
      | _ => true
    | _ => true)

theorem check_sound {ids : List LayerId} {ops : List Op} (h : check ids ops = true) : Careful ids ops := by
  simp only [check, Bool.and_eq_true, decide_eq_true_eq, List.all_eq_true, List.mem_range] at h
  obtain ⟨⟨h1, h2⟩, h3⟩ := h
  have lt : ∀ {i : Nat} {op : Op}, ops[i]? = some op → i < ops.length := by
    intro i op e; obtain ⟨h, -⟩ := List.getElem?_eq_some_iff.1 e; exact h
  refine ⟨h1, ?_, ?_, ?_⟩
  · intro a ha b hb k hk he
    have := h2 a ha b hb
    rw [hk, he] at this
    simp at this
  · intro i f t e op hop
    have := h3 i (lt e)
    simp only [e, Bool.and_eq_true, List.all_eq_true] at this
    simpa using this.1 op hop
  · intro i f t e g outs he
    have := h3 i (lt e)
    simp only [e, Bool.and_eq_true, he] at this
    replace this := this.2
    by_cases hft : f = t
    · exact .inl hft
    · right
      intro l p h4 h5
      simpa [hft, h4, h5] using this

/-- A history with nearly every misuse: the reserved layer id, a prefix with an index part, duplicate stamps, a parent edge inside a
layer, an edge between trajectories of one layer id and the removal of one of its ends, a merge with such an edge, null edge attributes. -/
def rough : List Op :=
  [.emplaceNode UNKNOWN_LAYER 90 Sample.at0, .emplaceDyn 2 0x61000001 5 Sample.at0 false, .emplaceDyn 2 0x61000001 6 Sample.at0 true,
   .emplacePrev 3 (Sample.a 4) 7 Sample.at0, .emplacePrev 3 (Sample.a 2) 7 Sample.at0,
   .emplaceNode 2 1 Sample.at0, .emplaceNode 2 2 Sample.at0, .emplaceNode 2 3 Sample.at0, .emplaceNode 3 4 Sample.at0,
   .insertParentEdge 1 2 none, .insertEdge 1 3 none, .insertParentEdge 4 3 none,
   .emplaceDyn 2 0x62000000 1 Sample.at0 true, .insertEdge 1 (Prefix.makeId 0x62000000 0) none, .mergeNodes 1 2,
   .insertEdge 2 (Prefix.makeId 0x62000000 0) none, .removeNode (Prefix.makeId 0x62000000 0),
   .mergeNodes (Prefix.makeId 0x61000001 0) 4, .addOrUpdateEdge 2 3 none, .removeEdge 9 10, .newNodes true, .markStale, .sweep]

theorem rough_careful : Careful [2, 3, UNKNOWN_LAYER] rough := check_sound (by decide +kernel)

/-- The invariants give everything a caller can see. -/
theorem intact {A : LayerId → Prefix → Prop} {F : Prop} {N : Nat} {g : Graph} (hM : MV g.view) (hT : g.Tame A N F) : g.Intact := by
  have hf := Graph.findNode_sat hM
  have known : ∀ {n x}, g.findNode n = .ok (some x) → ∃ k, g.lookup.find? n = some k ∧ g.view.node k n = some x := by
    intro n x hx
    cases hq : g.lookup.find? n with
    | none => simp [Graph.findNode, hq] at hx
    | some k => exact ⟨k, rfl, found hM hq hx⟩
  refine ⟨fun n => ⟨sat_ne (hf n), ?_, sat_ne (Graph.getPosition_sat hM hT n), sat_ne (Graph.checkNode_sat g n)⟩,
    fun s t => ⟨sat_ne (Graph.hasEdge_sat hM s t), sat_ne (Graph.findEdge_sat hM s t), ?_⟩, ?_, ?_, ?_, ?_, ?_, ?_, ?_⟩
  · refine sat_ne (P := fun _ => True) ((hf n).bind (fun p _ => ?_))
    cases p <;> trivial
  · refine sat_ne (P := fun _ => True) ((Graph.findEdge_sat hM s t).bind (fun p _ => ?_))
    obtain ⟨g', e⟩ := p
    cases e <;> trivial
  · intro n hn
    obtain ⟨k, hk⟩ := OMap.contains_eq_true.1 hn
    have := hf n
    cases hq : g.findNode n with
    | ub => rw [hq] at this; exact this.elim
    | throw e => exact .inl ⟨e, rfl⟩
    | ok p =>
      rw [hq] at this
      obtain ⟨x, rfl, hx⟩ := this k hk
      obtain ⟨a, ha⟩ := Option.isSome_iff_exists.1 (attrs_of_view hT hx)
      exact .inr ⟨x, a, rfl, ha⟩
  · intro n k hk hp
    obtain ⟨x, hx⟩ := finds hM hk hp
    obtain ⟨a, ha⟩ := Option.isSome_iff_exists.1 (attrs_of_view hT (found hM hk hx))
    exact ⟨x, a, hx, ha⟩
  · intro n k
    show g.lookup.find? n = some k ↔ _
    rw [show g.lookup.find? n = some k ↔ (g.view.node k n).isSome = true from hM.key n k]
    constructor
    · intro hl
      simp only [Graph.view] at hl
      cases hb : g.layerAt? k with
      | none => rw [hb] at hl; simp at hl
      | some b =>
        refine ⟨b, Graph.layerFromKey_iff.2 hb, ?_⟩
        rw [hb] at hl
        exact (hasNode_eq (Graph.MV.blive hM hb) n).trans hl
    · rintro ⟨b, hb, hn⟩
      have hb := Graph.layerFromKey_iff.1 hb
      simp only [Graph.view, hb]
      exact (hasNode_eq (Graph.MV.blive hM hb) n).symm.trans hn
  · intro n m x y hx hy
    obtain ⟨kn, h1, h2⟩ := known hx
    obtain ⟨km, h3, h4⟩ := known hy
    rw [Bool.eq_iff_iff]
    constructor
    · intro hp
      obtain ⟨k', z, hz, hc, -⟩ := hM.par kn n x m h2 hp
      have := hM.uniq hz h4
      subst this
      rw [h4] at hz; cases hz; exact hc
    · intro hc
      obtain ⟨k', z, hz, hp, -⟩ := hM.child km m y n h4 hc
      have := hM.uniq hz h2
      subst this
      rw [h2] at hz; cases hz; exact hp
  · intro n m x hx hp
    obtain ⟨kn, h1, h2⟩ := known hx
    obtain ⟨k', z, hz, -, hl⟩ := hM.par kn n x m h2 hp
    exact ⟨kn, k', h1, (hM.key m k').2 (by simp [hz]), hl⟩
  · intro n m x hx hp
    obtain ⟨kn, h1, h2⟩ := known hx
    obtain ⟨k', z, hz, -, hl⟩ := hM.child kn n x m h2 hp
    exact ⟨kn, k', h1, (hM.key m k').2 (by simp [hz]), hl⟩
  · intro n m x y hk hE hx hy
    obtain ⟨kn, h1, h2⟩ := known hx
    obtain ⟨km, h3, h4⟩ := known hy
    simp only [Graph.getLayerForNode, h1, h3, Option.some.injEq] at hk
    subst hk
    obtain ⟨b, hb⟩ := Graph.layerAt?_of_key hM h1
    simp only [Graph.hasEdge, Graph.hasEdgeKeys, h1, h3, if_true, Graph.layerFromKey_eq hb, Res.bind_ok, Res.pure_eq, Res.ok.injEq] at hE
    obtain ⟨e1, u, w, e2, e3, e4, e5⟩ := hM.edge kn n m (by rw [Graph.view_ec_of_layerAt? hb, ← hE]; cases b <;> rfl)
    rw [h2] at e2; rw [h4] at e3
    cases e2; cases e3
    exact ⟨e1, e4, e5⟩

end AnyHistory

open AnyHistory

variable {ids : List LayerId} {ops : List Op}

/-- **C51.** A careful history — it may contain almost every misuse — never dereferences a null pointer or reads out of bounds, and
neither does a query on the graph it ends in. No known node is null or lacks attributes; `findNode` can only throw for trajectories
whose prefix has an index part. -/
theorem C51_no_corruption (h : Careful ids ops) :
    Graph.exec ids ops ≠ .ub ∧ ∀ g outs, Graph.exec ids ops = .ok (g, outs) →
      (∀ n, g.findNode n ≠ .ub ∧ g.getNode n ≠ .ub ∧ g.getPosition n ≠ .ub ∧ g.checkNode n ≠ .ub) ∧
      (∀ s t, g.hasEdge s t ≠ .ub ∧ g.findEdge s t ≠ .ub ∧ g.getEdge s t ≠ .ub) ∧
      (∀ n, g.hasNode n = true → (∃ e, g.findNode n = .throw e) ∨ ∃ x a, g.findNode n = .ok (some x) ∧ x.attrs = some a) ∧
      (∀ n k, g.getLayerForNode n = some k → (∀ l p, k = .dyn l p → p.plain = true) →
        ∃ x a, g.findNode n = .ok (some x) ∧ x.attrs = some a) := by
  have hs := exec_sat h
  refine ⟨sat_ne hs, fun g outs he => ?_⟩
  obtain ⟨hM, hT⟩ := sat_ok hs he
  have hI := intact hM hT
  exact ⟨hI.nodes, hI.edges, hI.known, hI.found⟩

/-- The hypothesis of C51 is met by a history full of misuse, which runs to its end. -/
example : ∃ g outs, Graph.exec [2, 3, UNKNOWN_LAYER] rough = .ok (g, outs) ∧ g.hasNode 2 = true ∧ g.hasNode 90 = true := by
  have h : (match Graph.exec [2, 3, UNKNOWN_LAYER] rough with | .ok (g, _) => g.hasNode 2 && g.hasNode 90 | _ => false) = true := by decide +kernel
  split at h
  · rename_i g outs e; exact ⟨g, outs, e, by simpa using h⟩
  · cases h
example : Careful [2, 3, UNKNOWN_LAYER] rough := rough_careful

/-- **C52.** What holds after every careful history. A node is known iff exactly one layer stores it; parents and children mirror each
other and the parent's layer id is strictly higher; two nodes of one layer with an edge between them are different and list each other
as siblings. -/
theorem C52_structure_survives_misuse (h : Careful ids ops) {g : Graph} {outs : List Out} (he : Graph.exec ids ops = .ok (g, outs)) :
    (∀ n k, g.getLayerForNode n = some k ↔ ∃ b, g.layerFromKey k = .ok b ∧ b.hasNode n = true) ∧
    (∀ n m x y, g.findNode n = .ok (some x) → g.findNode m = .ok (some y) → x.parents.contains m = y.children.contains n) ∧
    (∀ n m x, g.findNode n = .ok (some x) → x.parents.contains m = true → ∃ kn km, g.getLayerForNode n = some kn ∧
      g.getLayerForNode m = some km ∧ kn.layer < km.layer) ∧
    (∀ n m x, g.findNode n = .ok (some x) → x.children.contains m = true → ∃ kn km, g.getLayerForNode n = some kn ∧
      g.getLayerForNode m = some km ∧ km.layer < kn.layer) ∧
    (∀ n m x y, g.getLayerForNode n = g.getLayerForNode m → g.hasEdge n m = .ok true → g.findNode n = .ok (some x) → g.findNode m = .ok (some y) →
      n ≠ m ∧ x.siblings.contains m = true ∧ y.siblings.contains n = true) := by
  obtain ⟨hM, hT⟩ := sat_ok (exec_sat h) he
  have hI := intact hM hT
  exact ⟨hI.stored, hI.mirror, hI.parents, hI.children, hI.siblings⟩

/-- C52 is about non-trivial graphs: after the rough history node 3 has parent 4, and is a sibling of 2. -/
example : Misuse.query [2, 3, UNKNOWN_LAYER] (rough.take 18) (fun g => .ok ((g.adjObs 3).map (fun r => (r.1.contains 4, r.2.1.contains 2))))
    = .ok (some (true, true)) := by decide +kernel

end Verif
