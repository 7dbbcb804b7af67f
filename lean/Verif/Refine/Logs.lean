import Verif.Refine.SpecStep
import Verif.Refine.Run
/-! # The change logs along a history -/

namespace Verif

variable {g g' : Graph} {σ σ' : Spec}

/-- the edge is present and lives at place `c` -/
def Spec.at (σ : Spec) (c : Place) (key : EdgeKey) : Bool := σ.edges.contains key && decide (σ.placeOf key = some c)

/-- status NEW -/
def Graph.isNew (g : Graph) (k : LayerKey) (n : NodeId) : Prop := g.view.st k n = some .new
/-- reported as removed by its layer -/
def Graph.isGone (g : Graph) (k : LayerKey) (n : NodeId) : Prop :=
  g.view.st k n = some .deleted ∨ (k.dynamic = false ∧ g.view.st k n = some .merged)
/-- status MERGED -/
def Graph.isMerged (g : Graph) (k : LayerKey) (n : NodeId) : Prop := g.view.st k n = some .merged

/-- The call wipes the graph. -/
def Op.wipes : Op → Bool
  | .clear | .reset _ => true
  | _ => false

/-- The call puts a dynamic node with id `m` at the index encoded in the id. -/
def Op.backfills : Op → Option NodeId
  | .emplacePrev _ m _ _ => some m
  | .addOrUpdateNode _ m _ (some _) => some m
  | _ => none

theorem Op.log_cases (σ : Spec) (op : Op) : (op.log σ = .plain ∧ op.wipes = false ∧ (∀ f t, op ≠ .mergeNodes f t)) ∨
    (∃ f t, op = .mergeNodes f t) ∨ (op.wipes = true ∧ op.log σ = .wipe) ∨
    (∃ l m, op.backfills = some m ∧ op.log σ = .pad l m ∧ op.wipes = false) ∨ (∃ c, op = .newNodes c) ∨ (∃ c, op = .removedNodes c) ∨
    (∃ c, op = .newEdges c) ∨ (∃ c, op = .removedEdges c) := by
  cases op <;> simp [Op.log, Op.wipes, Op.backfills]
  case addOrUpdateNode l n a st =>
    cases st with
    | none => simp
    | some t =>
      simp only [Op.log]
      split
      · exact .inl rfl
      · exact .inr (by simp)

theorem R.gone_not_live (h : R g σ) {k : LayerKey} {n : NodeId} (hd : g.isGone k n) : σ.key? n ≠ some k := by
  intro e
  have := RV.live h k n
  rw [RV.hasN_eq h] at this
  rw [e] at this
  rcases hd with hd | ⟨_, hd⟩ <;> simp [hd, NodeStatus.live] at this

theorem R.live_not_gone (h : R g σ) {k : LayerKey} {n : NodeId} (e : σ.key? n = some k) : ¬ g.isGone k n :=
  fun hd => h.gone_not_live hd e

theorem R.merged_not_live (h : R g σ) {k : LayerKey} {n : NodeId} (hd : g.isMerged k n) : σ.key? n ≠ some k := by
  intro e
  have := RV.live h k n
  rw [RV.hasN_eq h] at this
  unfold Graph.isMerged at hd
  simp [e, hd, NodeStatus.live] at this

theorem nlog_iff {gone : NodeStatus} {v v' : View} (hr : RV v σ) (hr' : RV v' σ') (hl : NLog gone v v') (k : LayerKey) (n : NodeId) :
    v'.st k n = if decide (σ.key? n = some k) = decide (σ'.key? n = some k) then v.st k n
      else if σ'.key? n = some k then some .new else some gone := by
  rw [hl k n, RV.hasN_eq hr, RV.hasN_eq hr']
  simp only [decide_eq_true_eq]

theorem elog_iff {v v' : View} (hr : RV v σ) (hr' : RV v' σ') (hl : ELog v v') (c : Place) (key : EdgeKey) :
    (v'.ec c).status.find? key = if σ.at c key = σ'.at c key then (v.ec c).status.find? key
      else if σ'.at c key = true then some .new else some .deleted := by
  rw [hl c key, RV.hasE_eq hr, RV.hasE_eq hr']; rfl

/-! ## One step, nodes -/

/-- New nodes after one call. -/
theorem R.new_step (hr : R g σ) (op : Op) (hr' : R g' (σ.step op).1)
    (hl : Logged σ g.view g'.view (op.log σ)) (hop : op ≠ .newNodes true) (n : NodeId) :
    (∃ k, g'.isNew k n) ↔ (σ.step op).1.nodes.contains n = true ∧ (σ.nodes.contains n = false ∨ ∃ k, g.isNew k n) := by
  have pres : ∀ k, (σ.step op).1.key? n = some k → (σ.step op).1.nodes.contains n = true := by
    intro k hk; rw [Spec.contains_of_key?, hk]; rfl
  have same : (∀ k, g'.view.st k n = g.view.st k n) → (∀ k, (σ.step op).1.key? n = some k ↔ σ.key? n = some k) →
      ((∃ k, g'.isNew k n) ↔ (σ.step op).1.nodes.contains n = true ∧ (σ.nodes.contains n = false ∨ ∃ k, g.isNew k n)) := by
    intro h1 h2
    unfold Graph.isNew
    simp only [h1]
    constructor
    · rintro ⟨k, hk⟩
      exact ⟨pres k ((h2 k).2 (hr.new_key hk)), .inr ⟨k, hk⟩⟩
    · rintro ⟨h3, h4 | h4⟩
      · obtain ⟨k, hk⟩ := Spec.key_of_contains h3
        have := (h2 k).1 hk
        rw [Spec.contains_of_key?, this] at h4; cases h4
      · exact h4
  have nl : ∀ gone, gone ≠ .new → NLog gone g.view g'.view →
      ((∃ k, g'.isNew k n) ↔ (σ.step op).1.nodes.contains n = true ∧ (σ.nodes.contains n = false ∨ ∃ k, g.isNew k n)) := by
    intro gone hg h1
    have h2 := nlog_iff hr hr' h1
    constructor
    · rintro ⟨k, hk⟩
      have hk' := hr'.new_key hk
      refine ⟨pres k hk', ?_⟩
      unfold Graph.isNew at hk
      rw [h2 k n] at hk
      by_cases e : σ.key? n = some k
      · simp only [e, hk', if_true] at hk
        exact .inr ⟨k, hk⟩
      · cases hc : σ.nodes.contains n with
        | false => exact .inl rfl
        | true =>
          obtain ⟨k0, hk0⟩ := Spec.key_of_contains hc
          rcases σ.step_key op hk0 with e' | e' <;> rw [hk'] at e'
          · cases e'; exact absurd hk0 e
          · cases e'
    · rintro ⟨h3, h4⟩
      obtain ⟨k, hk⟩ := Spec.key_of_contains h3
      refine ⟨k, ?_⟩
      unfold Graph.isNew
      rw [h2 k n]
      by_cases e : σ.key? n = some k
      · simp only [e, hk, if_true]
        rcases h4 with h4 | ⟨k0, h4⟩
        · rw [Spec.contains_of_key?, e] at h4; cases h4
        · have := hr.new_key h4
          rw [e] at this; cases this; exact h4
      · simp [e, hk]
  rcases Op.log_cases σ op with ⟨h1, -, -⟩ | ⟨f, t, rfl⟩ | ⟨-, h1⟩ | ⟨l, m, -, h1, -⟩ | ⟨c, rfl⟩ | ⟨c, rfl⟩ | ⟨c, rfl⟩ | ⟨c, rfl⟩
  · rw [h1] at hl; exact nl .deleted (by simp) hl.1
  · exact nl .merged (by simp) hl.1
  · rw [h1] at hl
    constructor
    · rintro ⟨k, hk⟩; unfold Graph.isNew at hk; rw [hl.1] at hk; cases hk
    · rintro ⟨h3, _⟩
      obtain ⟨k, hk⟩ := Spec.key_of_contains h3
      have := RV.live hr' k n
      rw [RV.hasN_eq hr', hk, hl.1] at this
      simp [NodeStatus.live] at this
  · rw [h1] at hl
    obtain ⟨_, hl⟩ := hl
    by_cases hm : σ.nodes.contains m = true
    · simp only [hm, if_true] at hl
      refine same (fun k => by rw [hl]) ?_
      intro k
      have e1 := RV.hasN_eq hr' k n
      have e2 := RV.hasN_eq hr k n
      rw [hl] at e1
      rw [e1] at e2
      exact decide_eq_decide.1 e2
    · simp only [hm] at hl
      simp only [Bool.false_eq_true, if_false] at hl
      constructor
      · rintro ⟨k, hk⟩
        have hk' := hr'.new_key hk
        refine ⟨pres k hk', ?_⟩
        unfold Graph.isNew at hk
        rw [hl k n] at hk
        split at hk
        · rename_i e; rw [e.2]; exact .inl (by simpa using hm)
        · split at hk
          · cases hk
          · exact .inr ⟨k, hk⟩
      · rintro ⟨h3, h4⟩
        obtain ⟨k, hk⟩ := Spec.key_of_contains h3
        refine ⟨k, ?_⟩
        have hlive := RV.live hr' k n
        rw [RV.hasN_eq hr', hk] at hlive
        unfold Graph.isNew
        rw [hl k n] at hlive ⊢
        split
        · rfl
        · rename_i e1
          simp only [e1, if_false] at hlive
          split
          · rename_i e2; simp [e2, NodeStatus.live] at hlive
          · rename_i e2
            simp only [e2, if_false, decide_true] at hlive
            have hk0 : σ.key? n = some k := by
              have := RV.live hr k n
              rw [hlive, RV.hasN_eq hr] at this
              simpa using this.symm
            rcases h4 with h4 | ⟨k0, h4⟩
            · rw [Spec.contains_of_key?, hk0] at h4; cases h4
            · have := hr.new_key h4
              rw [hk0] at this; cases this; exact h4
  · cases c with
    | true => exact absurd rfl hop
    | false =>
      refine same (fun k => ?_) (fun k => Iff.rfl)
      have := hl.1 k n
      rw [this]
      cases g.view.st k n <;> simp [seenN]
  · have key : ∀ k, g'.isNew k n ↔ g.isNew k n := by
      intro k
      unfold Graph.isNew
      rw [hl.1 k n]
      cases g.view.st k n with
      | none => simp
      | some s => cases c <;> cases s <;> simp [forgetN]
    simp only [key, Spec.step]
    constructor
    · rintro ⟨k, hk⟩
      exact ⟨by rw [Spec.contains_of_key?, hr.new_key hk]; rfl, .inr ⟨k, hk⟩⟩
    · rintro ⟨h3, h4 | h4⟩
      · rw [h3] at h4; cases h4
      · exact h4
  · exact same (fun k => by rw [hl.1]) (fun k => Iff.rfl)
  · exact same (fun k => by rw [hl.1]) (fun k => Iff.rfl)

/-- The call back-fills a node that shares its prefix with `n`. -/
def Op.backfillsNear (n : NodeId) (op : Op) : Bool :=
  match op.backfills with
  | some m => Prefix.fromId m == Prefix.fromId n
  | none => false

theorem R.pad_st {m n : NodeId} {l : LayerId} (hl : Logged σ g.view g'.view (.pad l m))
    (hn : Prefix.fromId m ≠ Prefix.fromId n) (k : LayerKey) : g'.view.st k n = g.view.st k n := by
  obtain ⟨_, hl⟩ := hl
  by_cases hm : σ.nodes.contains m = true
  · simp only [hm, if_true] at hl; rw [hl]
  · simp only [hm] at hl
    simp only [Bool.false_eq_true, if_false] at hl
    rw [hl k n]
    have h1 : ¬ (k = .dyn l (Prefix.fromId m) ∧ n = m) := by rintro ⟨_, rfl⟩; exact hn rfl
    have h2 : ¬ (k = .dyn l (Prefix.fromId m) ∧ (Prefix.fromId m).isMatch n = true ∧
        (σ.dynInfo l (Prefix.fromId m)).top < (Prefix.fromId m).index n ∧
        (Prefix.fromId m).index n ≤ max (σ.dynInfo l (Prefix.fromId m)).top ((Prefix.fromId m).index m + 1)) := by
      rintro ⟨_, h, _⟩
      exact hn ((Prefix.isMatch_iff _ _).1 h)
    simp only [h1, h2, if_false]

/-- A back-fill says nothing about static layers. -/
theorem R.pad_st_static {m : NodeId} {l : LayerId} (hl : Logged σ g.view g'.view (.pad l m)) {k : LayerKey} (hk : k.dynamic = false)
    (n : NodeId) : g'.view.st k n = g.view.st k n := by
  obtain ⟨_, hl⟩ := hl
  by_cases hm : σ.nodes.contains m = true
  · simp only [hm, if_true] at hl; rw [hl]
  · simp only [hm] at hl
    simp only [Bool.false_eq_true, if_false] at hl
    rw [hl k n]
    have h0 : ∀ p, k ≠ .dyn l p := by rintro p rfl; cases hk
    simp only [h0, false_and, if_false]

/-- The call back-fills a node of the layer `k` and thereby makes the number of its slots grow from less than the index of `n` to at
least that. -/
def Spec.pads (σ : Spec) (op : Op) (k : LayerKey) (n : NodeId) : Prop := ∃ l, k = .dyn l (Prefix.fromId n) ∧ op.backfillsNear n = true ∧
  (σ.dynInfo l (Prefix.fromId n)).top < (Prefix.fromId n).index n ∧
  (Prefix.fromId n).index n ≤ ((σ.step op).1.dynInfo l (Prefix.fromId n)).top

/-- the slots of a layer after a back-fill -/
theorem Spec.top_pad {op : Op} {l : LayerId} {m : NodeId} (h : op.log σ = .pad l m) (l' : LayerId) (p : Prefix) :
    ((σ.step op).1.dynInfo l' p).top = if σ.nodes.contains m = false ∧ l' = l ∧ p = Prefix.fromId m
      then max (σ.dynInfo l p).top (p.index m + 1) else (σ.dynInfo l' p).top := by
  have prev : ∀ t a, ((σ.emplacePrev l m t a).1.dynInfo l' p).top = if σ.nodes.contains m = false ∧ l' = l ∧ p = Prefix.fromId m
      then max (σ.dynInfo l p).top (p.index m + 1) else (σ.dynInfo l' p).top := by
    intro t a
    unfold Spec.emplacePrev
    split
    · rename_i hm; simp [hm]
    · rename_i hm
      simp only [Spec.dynInfo, Spec.addNode, OMap.find?_insert, Prod.mk.injEq]
      by_cases e : l' = l ∧ p = Prefix.fromId m
      · obtain ⟨rfl, rfl⟩ := e; simp [hm]
      · have e' : ¬ (l = l' ∧ Prefix.fromId m = p) := fun h => e ⟨h.1.symm, h.2.symm⟩
        simp [e, e']
  cases op with
  | emplacePrev l0 n t a => simp only [Op.log, LogKind.pad.injEq] at h; obtain ⟨rfl, rfl⟩ := h; exact prev t a
  | addOrUpdateNode l0 n a st =>
    cases st with
    | none => simp [Op.log] at h
    | some t =>
      simp only [Op.log] at h
      split at h
      · cases h
      · rename_i hc
        simp only [Bool.or_eq_true, Bool.not_eq_true', not_or, Bool.not_eq_false, Bool.not_eq_true] at hc
        simp only [LogKind.pad.injEq] at h
        obtain ⟨rfl, rfl⟩ := h
        have : (σ.step (.addOrUpdateNode l0 n a (some t))).1 = (σ.emplacePrev l0 n t a).1 := by
          simp only [Spec.step, Spec.ans]
          unfold Spec.addOrUpdateNode
          simp [hc.1, hc.2, -List.contains_eq_mem]
        rw [this]; exact prev t a
  | _ => simp [Op.log] at h

/-- Removed nodes after one call. -/
theorem R.gone_step (hr : R g σ) (op : Op) (hok : op.ok σ = true) (hr' : R g' (σ.step op).1)
    (hl : Logged σ g.view g'.view (op.log σ)) (hop : op ≠ .removedNodes true) (hwipe : op.wipes = false) {n : NodeId}
    (hb : op.backfillsNear n = false ∨ op.log σ = .plain) (k : LayerKey) :
    g'.isGone k n ↔ (σ.step op).1.key? n ≠ some k ∧ (σ.key? n = some k ∨ g.isGone k n) := by
  have same : g'.view.st k n = g.view.st k n → ((σ.step op).1.key? n = some k ↔ σ.key? n = some k) →
      (g'.isGone k n ↔ (σ.step op).1.key? n ≠ some k ∧ (σ.key? n = some k ∨ g.isGone k n)) := by
    intro h1 h2
    have : g'.isGone k n ↔ g.isGone k n := by unfold Graph.isGone; rw [h1]
    rw [this, ne_eq, h2]
    constructor
    · intro h; exact ⟨hr.gone_not_live h, .inr h⟩
    · rintro ⟨h3, h4 | h4⟩
      · exact absurd h4 h3
      · exact h4
  have nl : ∀ gone, (gone = .deleted ∨ (gone = .merged ∧ (σ.key? n = some k → (σ.step op).1.key? n ≠ some k → k.dynamic = false))) →
      NLog gone g.view g'.view →
      (g'.isGone k n ↔ (σ.step op).1.key? n ≠ some k ∧ (σ.key? n = some k ∨ g.isGone k n)) := by
    intro gone hg h1
    have h2 := nlog_iff hr hr' h1 k n
    by_cases e : σ.key? n = some k <;> by_cases e' : (σ.step op).1.key? n = some k
    · simp only [e', ne_eq, not_true, false_and, iff_false]; exact hr'.live_not_gone e'
    · simp only [e, e', decide_true, decide_false, Bool.true_eq_false, if_false] at h2
      simp only [e, e', ne_eq, not_false_eq_true, true_or, and_self, iff_true]
      unfold Graph.isGone
      rw [h2]
      rcases hg with rfl | ⟨rfl, hk⟩
      · exact .inl rfl
      · exact .inr ⟨hk e e', rfl⟩
    · simp only [e', ne_eq, not_true, false_and, iff_false]; exact hr'.live_not_gone e'
    · exact same (by rw [h2]; simp [e, e']) (by simp [e, e'])
  rcases Op.log_cases σ op with ⟨h1, -, -⟩ | ⟨f, t, rfl⟩ | ⟨h1, -⟩ | ⟨l, m, h0, h1, -⟩ | ⟨c, rfl⟩ | ⟨c, rfl⟩ | ⟨c, rfl⟩ | ⟨c, rfl⟩
  · rw [h1] at hl; exact nl .deleted (.inl rfl) hl.1
  · refine nl .merged (.inr ⟨rfl, ?_⟩) hl.1
    intro e e'
    cases k with
    | static l => rfl
    | dyn l p =>
      exfalso
      apply e'
      simp only [Op.ok, Bool.and_eq_true] at hok
      simp only [Spec.step, Spec.ans]
      unfold Spec.mergeNodes
      split
      · exact e
      · rename_i hft
        split
        · rename_i kf kt hf ht
          split
          · exact e
          · rename_i hk
            have hk := Classical.not_not.1 hk
            subst hk
            by_cases hn : f = n
            · subst hn
              rw [e] at hf; cases hf
              simp [e, ht, hft] at hok
            · simpa [Spec.key?, OMap.find?_erase, hn] using e
        · exact e
  · rw [h1] at hwipe; cases hwipe
  · rw [h1] at hl
    have hne : Prefix.fromId m ≠ Prefix.fromId n := by
      rw [h1] at hb; simpa [Op.backfillsNear, h0] using hb
    have hs := R.pad_st hl hne k
    refine same hs ?_
    have e1 := RV.live hr' k n
    rw [RV.hasN_eq hr', hs, RV.live hr k n, RV.hasN_eq hr] at e1
    exact (decide_eq_decide.1 e1).symm
  · have key : g'.isGone k n ↔ g.isGone k n := by
      unfold Graph.isGone
      rw [hl.1 k n]
      cases g.view.st k n with
      | none => simp
      | some s => cases c <;> cases s <;> simp [seenN]
    rw [key]
    constructor
    · intro h; exact ⟨hr.gone_not_live h, .inr h⟩
    · rintro ⟨h3, h4 | h4⟩
      · exact absurd h4 h3
      · exact h4
  · cases c with
    | true => exact absurd rfl hop
    | false =>
      refine same ?_ Iff.rfl
      have := hl.1 k n
      rw [this]
      cases g.view.st k n <;> simp [forgetN]
  · exact same (by rw [hl.1]) Iff.rfl
  · exact same (by rw [hl.1]) Iff.rfl

/-- Removed nodes after one call, including the ids that a back-fill reports. -/
theorem R.gone_step_pads (hr : R g σ) (op : Op) (hok : op.ok σ = true) (hr' : R g' (σ.step op).1)
    (hl : Logged σ g.view g'.view (op.log σ)) (hop : op ≠ .removedNodes true) (hwipe : op.wipes = false) (n : NodeId) (k : LayerKey) :
    g'.isGone k n ↔ (σ.step op).1.key? n ≠ some k ∧ (σ.key? n = some k ∨ g.isGone k n ∨ σ.pads op k n) := by
  by_cases hpad : ∃ l m, op.log σ = .pad l m
  · obtain ⟨l, m, hlog⟩ := hpad
    have hbf : op.backfills = some m := by
      rcases Op.log_cases σ op with ⟨h1, _⟩ | ⟨f, t, rfl⟩ | ⟨_, h1⟩ | ⟨l', m', h0, h1, _⟩ | ⟨c, rfl⟩ | ⟨c, rfl⟩ | ⟨c, rfl⟩ | ⟨c, rfl⟩
      · rw [h1] at hlog; cases hlog
      · cases hlog
      · rw [h1] at hlog; cases hlog
      · rw [h1] at hlog; cases hlog; exact h0
      all_goals cases hlog
    have htop := Spec.top_pad hlog
    rw [hlog] at hl
    obtain ⟨_, hl⟩ := hl
    have same : g'.view.st k n = g.view.st k n → ¬ σ.pads op k n →
        (g'.isGone k n ↔ (σ.step op).1.key? n ≠ some k ∧ (σ.key? n = some k ∨ g.isGone k n ∨ σ.pads op k n)) := by
      intro hs hp
      have hk : (σ.step op).1.key? n = some k ↔ σ.key? n = some k := by
        have e1 := RV.live hr' k n
        rw [RV.hasN_eq hr', hs, RV.live hr k n, RV.hasN_eq hr] at e1
        exact (decide_eq_decide.1 e1).symm
      have : g'.isGone k n ↔ g.isGone k n := by unfold Graph.isGone; rw [hs]
      rw [this, ne_eq, hk]
      constructor
      · intro h; exact ⟨hr.gone_not_live h, .inr (.inl h)⟩
      · rintro ⟨h3, h4 | h4 | h4⟩
        · exact absurd h4 h3
        · exact h4
        · exact absurd h4 hp
    by_cases hm : σ.nodes.contains m = true
    · simp only [hm, if_true] at hl
      refine same (by rw [hl]) ?_
      rintro ⟨l', _, _, h3, h4⟩
      rw [htop, if_neg (by simp [hm])] at h4
      omega
    · simp only [hm] at hl
      simp only [Bool.false_eq_true, if_false] at hl
      have hst := hl k n
      split at hst
      · rename_i hc
        have hlive := RV.live hr' k n
        rw [RV.hasN_eq hr', hst] at hlive
        have hk : (σ.step op).1.key? n = some k := by simpa [NodeStatus.live] using hlive
        simp only [hk, ne_eq, not_true, false_and, iff_false]
        exact hr'.live_not_gone hk
      · rename_i hc
        split at hst
        · rename_i hd
          obtain ⟨h1, h2, h3, h4⟩ := hd
          have hg : g'.isGone k n := .inl hst
          refine ⟨fun _ => ⟨hr'.gone_not_live hg, .inr (.inr ?_)⟩, fun _ => hg⟩
          have hp := (Prefix.isMatch_iff _ _).1 h2
          rw [hp] at h1 h3 h4
          refine ⟨l, h1, by simp [Op.backfillsNear, hbf, hp], h3, ?_⟩
          rw [htop, if_pos ⟨by simpa using hm, rfl, hp.symm⟩]
          exact h4
        · rename_i hd
          refine same hst ?_
          rintro ⟨l', h1, h2, h3, h4⟩
          have hp : Prefix.fromId m = Prefix.fromId n := by simpa [Op.backfillsNear, hbf] using h2
          rw [htop] at h4
          split at h4
          · rename_i he
            obtain ⟨_, rfl, _⟩ := he
            exact hd ⟨by rw [hp]; exact h1, (Prefix.isMatch_iff _ _).2 hp, by rw [hp]; exact h3, by rw [hp]; exact h4⟩
          · omega
  · have hb : op.backfillsNear n = false ∨ op.log σ = .plain := by
      rcases Op.log_cases σ op with ⟨h1, _⟩ | ⟨f, t, rfl⟩ | ⟨h0, h1⟩ | ⟨l', m', h0, h1, _⟩ | ⟨c, rfl⟩ | ⟨c, rfl⟩ | ⟨c, rfl⟩ | ⟨c, rfl⟩
      · exact .inr h1
      · exact .inl rfl
      · rw [h0] at hwipe; cases hwipe
      · exact absurd ⟨_, _, h1⟩ hpad
      all_goals exact .inl rfl
    rw [hr.gone_step op hok hr' hl hop hwipe hb k]
    have hno : ¬ σ.pads op k n := by
      rintro ⟨l, _, h2, h3, h4⟩
      have hd : (σ.step op).1.dyn = σ.dyn := by
        cases op with
        | addOrUpdateNode l0 m a st =>
          cases st with
          | none => simp [Op.backfillsNear, Op.backfills] at h2
          | some t =>
            simp only [Op.log] at hpad
            split at hpad
            · rename_i hc
              simp only [Spec.step, Spec.ans]
              unfold Spec.addOrUpdateNode
              split
              · rfl
              · rename_i hc1
                split
                · unfold Spec.setNodeAttrs; split <;> rfl
                · rename_i hc2
                  simp only [Bool.or_eq_true] at hc
                  rcases hc with hc | hc
                  · exact absurd hc hc1
                  · exact absurd hc hc2
            · exact absurd ⟨_, _, rfl⟩ hpad
        | emplacePrev l0 m t a => exact absurd ⟨_, _, rfl⟩ hpad
        | _ => simp [Op.backfillsNear, Op.backfills] at h2
      simp only [Spec.dynInfo, hd] at h3 h4
      omega
    simp only [hno, or_false]

/-- Merged nodes after one call. -/
theorem R.merged_step (hr : R g σ) (op : Op) (hr' : R g' (σ.step op).1)
    (hl : Logged σ g.view g'.view (op.log σ)) (hwipe : op.wipes = false) (n : NodeId)
    {k : LayerKey} (hk : k.dynamic = false) :
    g'.isMerged k n ↔ (σ.step op).1.key? n ≠ some k ∧
      ((σ.key? n = some k ∧ ∃ f t, op = .mergeNodes f t) ∨ g.isMerged k n) := by
  have same : (g'.isMerged k n ↔ g.isMerged k n) → ((σ.step op).1.key? n = some k ↔ σ.key? n = some k) →
      (g'.isMerged k n ↔ (σ.step op).1.key? n ≠ some k ∧ ((σ.key? n = some k ∧ ∃ f t, op = .mergeNodes f t) ∨ g.isMerged k n)) := by
    intro h1 h2
    rw [h1, ne_eq, h2]
    constructor
    · intro h; exact ⟨hr.merged_not_live h, .inr h⟩
    · rintro ⟨h3, ⟨h4, _⟩ | h4⟩
      · exact absurd h4 h3
      · exact h4
  have nl : ∀ gone, ((∃ f t, op = .mergeNodes f t) ↔ gone = .merged) → (gone = .deleted ∨ gone = .merged) → NLog gone g.view g'.view →
      (g'.isMerged k n ↔ (σ.step op).1.key? n ≠ some k ∧ ((σ.key? n = some k ∧ ∃ f t, op = .mergeNodes f t) ∨ g.isMerged k n)) := by
    intro gone hg hg' h1
    have h2 := nlog_iff hr hr' h1 k n
    by_cases e : σ.key? n = some k <;> by_cases e' : (σ.step op).1.key? n = some k
    · simp only [e', ne_eq, not_true, false_and, iff_false]; exact fun h => hr'.merged_not_live h e'
    · simp only [e, e', decide_true, decide_false, Bool.true_eq_false, if_false] at h2
      simp only [e, e', ne_eq, not_false_eq_true, true_and, hg]
      have : ¬ g.isMerged k n := fun h => hr.merged_not_live h e
      unfold Graph.isMerged at this ⊢
      rw [h2]
      rcases hg' with rfl | rfl <;> simp [this]
    · simp only [e', ne_eq, not_true, false_and, iff_false]; exact fun h => hr'.merged_not_live h e'
    · refine same ?_ (by simp [e, e'])
      unfold Graph.isMerged
      rw [h2]; simp [e, e']
  rcases Op.log_cases σ op with ⟨h1, -, h3⟩ | ⟨f, t, rfl⟩ | ⟨h1, -⟩ | ⟨l, m, h0, h1, -⟩ | ⟨c, rfl⟩ | ⟨c, rfl⟩ | ⟨c, rfl⟩ | ⟨c, rfl⟩
  · rw [h1] at hl
    refine nl .deleted ?_ (.inl rfl) hl.1
    simp only [reduceCtorEq, iff_false]
    rintro ⟨f, t, e⟩; exact h3 f t e
  · exact nl .merged (by simp) (.inr rfl) hl.1
  · rw [h1] at hwipe; cases hwipe
  · rw [h1] at hl
    have hs := R.pad_st_static hl hk n
    refine same (by unfold Graph.isMerged; rw [hs]) ?_
    have e1 := RV.live hr' k n
    rw [RV.hasN_eq hr', hs, RV.live hr k n, RV.hasN_eq hr] at e1
    exact (decide_eq_decide.1 e1).symm
  · refine same ?_ Iff.rfl
    unfold Graph.isMerged
    rw [hl.1 k n]
    cases g.view.st k n with
    | none => simp
    | some s => cases c <;> cases s <;> simp [seenN]
  · refine same ?_ Iff.rfl
    unfold Graph.isMerged
    rw [hl.1 k n]
    cases g.view.st k n with
    | none => simp
    | some s => cases c <;> cases s <;> simp [forgetN]
  · exact same (by unfold Graph.isMerged; rw [hl.1]) Iff.rfl
  · exact same (by unfold Graph.isMerged; rw [hl.1]) Iff.rfl

/-! ## One step, edges -/

/-- status NEW -/
def Graph.isNewE (g : Graph) (c : Place) (key : EdgeKey) : Prop := (g.view.ec c).status.find? key = some .new
/-- status DELETED -/
def Graph.isGoneE (g : Graph) (c : Place) (key : EdgeKey) : Prop := (g.view.ec c).status.find? key = some .deleted

theorem R.live_edge (h : R g σ) (c : Place) (key : EdgeKey) :
    EdgeStatus.live ((g.view.ec c).status.find? key) = σ.at c key := by
  rw [(RV.ec h c).status key]; exact RV.hasE_eq h c key

theorem R.newE_at (h : R g σ) {c : Place} {key : EdgeKey} (hn : g.isNewE c key) : σ.at c key = true := by
  rw [← h.live_edge c key, hn]; rfl
theorem R.goneE_at (h : R g σ) {c : Place} {key : EdgeKey} (hn : g.isGoneE c key) : σ.at c key = false := by
  rw [← h.live_edge c key, hn]; rfl

theorem R.newE_step (hr : R g σ) (op : Op) (hr' : R g' (σ.step op).1)
    (hl : Logged σ g.view g'.view (op.log σ)) (hop : op ≠ .newEdges true) (c : Place) (key : EdgeKey) :
    g'.isNewE c key ↔ (σ.step op).1.at c key = true ∧ (σ.at c key = false ∨ g.isNewE c key) := by
  have same : (g'.isNewE c key ↔ g.isNewE c key) → (σ.step op).1.at c key = σ.at c key →
      (g'.isNewE c key ↔ (σ.step op).1.at c key = true ∧ (σ.at c key = false ∨ g.isNewE c key)) := by
    intro h1 h2
    rw [h1, h2]
    constructor
    · intro h; exact ⟨hr.newE_at h, .inr h⟩
    · rintro ⟨h3, h4 | h4⟩
      · rw [h3] at h4; cases h4
      · exact h4
  have nl : ELog g.view g'.view →
      (g'.isNewE c key ↔ (σ.step op).1.at c key = true ∧ (σ.at c key = false ∨ g.isNewE c key)) := by
    intro h1
    have h2 := elog_iff hr hr' h1 c key
    cases e : σ.at c key <;> cases e' : (σ.step op).1.at c key
    · have := same (by unfold Graph.isNewE; rw [h2]; simp [e, e']) (by rw [e, e'])
      rw [e, e'] at this; exact this
    · simp only [e, e', Bool.false_eq_true, if_false, if_true] at h2
      simp only [true_or, and_self, iff_true]; exact h2
    · simp only [e, e', Bool.true_eq_false, Bool.false_eq_true, if_false] at h2
      unfold Graph.isNewE; rw [h2]; simp
    · have := same (by unfold Graph.isNewE; rw [h2]; simp [e, e']) (by rw [e, e'])
      rw [e, e'] at this; exact this
  rcases Op.log_cases σ op with ⟨h1, -, h3⟩ | ⟨f, t, rfl⟩ | ⟨-, h1⟩ | ⟨l, m, h0, h1, -⟩ | ⟨c', rfl⟩ | ⟨c', rfl⟩ | ⟨c', rfl⟩ | ⟨c', rfl⟩
  · rw [h1] at hl; exact nl hl.2
  · exact nl hl.2
  · rw [h1] at hl
    have := hr'.live_edge c key
    rw [hl.2] at this
    have hf : (σ.step op).1.at c key = false := this.symm
    unfold Graph.isNewE
    rw [hl.2, hf]; simp
  · rw [h1] at hl
    refine same (by unfold Graph.isNewE; rw [hl.1]) ?_
    rw [← hr'.live_edge c key, hl.1, hr.live_edge c key]
  · exact same (by unfold Graph.isNewE; rw [hl.2]) rfl
  · exact same (by unfold Graph.isNewE; rw [hl.2]) rfl
  · cases c' with
    | true => exact absurd rfl hop
    | false =>
      refine same ?_ rfl
      unfold Graph.isNewE
      rw [hl.2 c key]
      cases (g.view.ec c).status.find? key <;> simp [seenE]
  · refine same ?_ rfl
    unfold Graph.isNewE
    rw [hl.2 c key]
    cases (g.view.ec c).status.find? key with
    | none => simp
    | some s => cases c' <;> cases s <;> simp [forgetE]

theorem R.goneE_step (hr : R g σ) (op : Op) (hr' : R g' (σ.step op).1)
    (hl : Logged σ g.view g'.view (op.log σ)) (hop : op ≠ .removedEdges true) (hwipe : op.wipes = false) (c : Place) (key : EdgeKey) :
    g'.isGoneE c key ↔ (σ.step op).1.at c key = false ∧ (σ.at c key = true ∨ g.isGoneE c key) := by
  have same : (g'.isGoneE c key ↔ g.isGoneE c key) → (σ.step op).1.at c key = σ.at c key →
      (g'.isGoneE c key ↔ (σ.step op).1.at c key = false ∧ (σ.at c key = true ∨ g.isGoneE c key)) := by
    intro h1 h2
    rw [h1, h2]
    constructor
    · intro h; exact ⟨hr.goneE_at h, .inr h⟩
    · rintro ⟨h3, h4 | h4⟩
      · rw [h3] at h4; cases h4
      · exact h4
  have nl : ELog g.view g'.view →
      (g'.isGoneE c key ↔ (σ.step op).1.at c key = false ∧ (σ.at c key = true ∨ g.isGoneE c key)) := by
    intro h1
    have h2 := elog_iff hr hr' h1 c key
    cases e : σ.at c key <;> cases e' : (σ.step op).1.at c key
    · have := same (by unfold Graph.isGoneE; rw [h2]; simp [e, e']) (by rw [e, e'])
      rw [e, e'] at this; exact this
    · simp only [e, e', Bool.false_eq_true, if_false, if_true] at h2
      unfold Graph.isGoneE; rw [h2]; simp
    · simp only [e, e', Bool.true_eq_false, Bool.false_eq_true, if_false] at h2
      simp only [true_or, and_self, iff_true]; exact h2
    · have := same (by unfold Graph.isGoneE; rw [h2]; simp [e, e']) (by rw [e, e'])
      rw [e, e'] at this; exact this
  rcases Op.log_cases σ op with ⟨h1, -, h3⟩ | ⟨f, t, rfl⟩ | ⟨h1, -⟩ | ⟨l, m, h0, h1, -⟩ | ⟨c', rfl⟩ | ⟨c', rfl⟩ | ⟨c', rfl⟩ | ⟨c', rfl⟩
  · rw [h1] at hl; exact nl hl.2
  · exact nl hl.2
  · rw [h1] at hwipe; cases hwipe
  · rw [h1] at hl
    refine same (by unfold Graph.isGoneE; rw [hl.1]) ?_
    rw [← hr'.live_edge c key, hl.1, hr.live_edge c key]
  · exact same (by unfold Graph.isGoneE; rw [hl.2]) rfl
  · exact same (by unfold Graph.isGoneE; rw [hl.2]) rfl
  · refine same ?_ rfl
    unfold Graph.isGoneE
    rw [hl.2 c key]
    cases (g.view.ec c).status.find? key with
    | none => simp
    | some s => cases c' <;> cases s <;> simp [seenE]
  · cases c' with
    | true => exact absurd rfl hop
    | false =>
      refine same ?_ rfl
      unfold Graph.isGoneE
      rw [hl.2 c key]
      cases (g.view.ec c).status.find? key <;> simp [forgetE]

end Verif
