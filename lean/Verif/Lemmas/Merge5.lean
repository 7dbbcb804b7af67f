import Verif.Lemmas.Merge4
import Verif.Lemmas.Writer
/-! # Runs of iterations, and what stays true along them -/

namespace Verif

/-- Every iteration of the run meets the graph in a fitting state. -/
def FitsAll (P : MergePar) : Spec → List MergeEv → Prop
  | _, [] => True
  | σ, e :: es => e.Fits σ ∧ FitsAll P (σ.after (plan P σ e)) es

/-- The run of the iterations `evs` leads from `g` to `g'`. -/
structure Did (P : MergePar) (g : Graph) (σ : Spec) (evs : List MergeEv) (g' : Graph) : Prop where
  does : Does g σ (planAll P σ evs) g'
  fits : FitsAll P σ evs

section
variable {P : MergePar} {g g' g'' : Graph} {σ σ0 τ : Spec}

theorem FitsAll_append (a b : List MergeEv) : FitsAll P σ (a ++ b) ↔ FitsAll P σ a ∧ FitsAll P (σ.merged P a) b := by
  induction a generalizing σ with
  | nil => simp [FitsAll]
  | cons x a ih => simp only [List.cons_append, FitsAll, ih, Spec.merged_cons]; exact and_assoc.symm

theorem Did.nil (h : R g σ) (hw : SWF σ) : Did P g σ [] g := ⟨.nil h hw, trivial⟩

theorem Did.one {e : MergeEv} (h : Does g σ (plan P σ e) g') (hf : e.Fits σ) : Did P g σ [e] g' :=
  ⟨by simpa [planAll] using h, hf, trivial⟩

theorem Did.trans {a b : List MergeEv} (h : Did P g σ a g') (h' : Did P g' (σ.merged P a) b g'') : Did P g σ (a ++ b) g'' :=
  ⟨by rw [planAll_append]; exact h.does.trans h'.does, (FitsAll_append a b).2 ⟨h.fits, h'.fits⟩⟩

theorem Did.cons {e : MergeEv} {es : List MergeEv} (h : Does g σ (plan P σ e) g') (hf : e.Fits σ) (h' : Did P g' (σ.after (plan P σ e)) es g'') :
    Did P g σ (e :: es) g'' := ⟨h.trans h'.does, hf, h'.fits⟩

/-- An element of a loop, iteration by iteration. -/
theorem Did.fold {S α : Type} {f : S → α → Res S} {emb : S → Graph} {ev : α → Option MergeEv} (I : S → Spec → Prop)
    (hI : ∀ s σ, I s σ → R (emb s) σ ∧ SWF σ) (xs : List α)
    (step : ∀ s σ x, x ∈ xs → I s σ → ∃ s' e, f s x = .ok s' ∧ ev x = some e ∧ Does (emb s) σ (plan P σ e) (emb s') ∧ e.Fits σ ∧
      I s' (σ.after (plan P σ e))) {s : S} (h : I s σ) :
    ∃ s', foldRes f s xs = .ok s' ∧ Did P (emb s) σ (xs.filterMap ev) (emb s') ∧ I s' (σ.merged P (xs.filterMap ev)) := by
  induction xs generalizing s σ with
  | nil => exact ⟨s, rfl, .nil (hI s σ h).1 (hI s σ h).2, h⟩
  | cons x xs ih =>
    obtain ⟨s1, e, h1, h2, h3, h4, h5⟩ := step s σ x List.mem_cons_self h
    obtain ⟨s2, g1, g2, g3⟩ := ih (fun s σ y hy => step s σ y (List.mem_cons_of_mem _ hy)) h5
    refine ⟨s2, by rw [foldRes_cons, h1]; exact g1, ?_, ?_⟩
    · rw [List.filterMap_cons_some h2]; exact .cons h3 h4 g2
    · rw [List.filterMap_cons_some h2, Spec.merged_cons]; exact g3

/-- A loop whose iterations are runs. -/
theorem Did.foldList {S α : Type} {f : S → α → Res S} {emb : S → Graph} {ev : α → List MergeEv} (I : S → Spec → List α → Prop)
    (hI : ∀ s σ xs, I s σ xs → R (emb s) σ ∧ SWF σ) (xs : List α)
    (step : ∀ s σ x ys, x ∈ xs → I s σ (x :: ys) → ∃ s', f s x = .ok s' ∧ Did P (emb s) σ (ev x) (emb s') ∧
      I s' (σ.merged P (ev x)) ys) {s : S} (h : I s σ xs) :
    ∃ s', foldRes f s xs = .ok s' ∧ Did P (emb s) σ (xs.flatMap ev) (emb s') ∧ I s' (σ.merged P (xs.flatMap ev)) [] := by
  induction xs generalizing s σ with
  | nil => exact ⟨s, rfl, .nil (hI s σ _ h).1 (hI s σ _ h).2, h⟩
  | cons x xs ih =>
    obtain ⟨s1, h1, h2, h3⟩ := step s σ x xs List.mem_cons_self h
    obtain ⟨s2, g1, g2, g3⟩ := ih (fun s σ y ys hy => step s σ y ys (List.mem_cons_of_mem _ hy)) h3
    refine ⟨s2, by rw [foldRes_cons, h1]; exact g1, ?_, ?_⟩
    · rw [List.flatMap_cons]; exact h2.trans g2
    · rw [List.flatMap_cons, Spec.merged_append]; exact g3

/-- the nodes after a run -/
theorem merged_nodes {evs : List MergeEv} (hf : FitsAll P σ evs) (m : NodeId) :
    (σ.merged P evs).nodes.find? m = evs.foldl (fun x ev => ptFx P ev m x) (σ.nodes.find? m) := by
  induction evs generalizing σ with
  | nil => rfl
  | cons e es ih =>
    rw [Spec.merged_cons, ih hf.2, plan_nodes e hf.1]; rfl

theorem merged_frame {evs : List MergeEv} (hf : FitsAll P σ evs) :
    (σ.merged P evs).layerIds = σ.layerIds ∧ (σ.merged P evs).mesh = σ.mesh ∧ (σ.merged P evs).marks = σ.marks := by
  induction evs generalizing σ with
  | nil => exact ⟨rfl, rfl, rfl⟩
  | cons e es ih =>
    obtain ⟨a, b, c⟩ := ih hf.2
    obtain ⟨a', b', c'⟩ := plan_frame (P := P) e hf.1
    rw [Spec.merged_cons]
    exact ⟨a.trans a', b.trans b', c.trans c'⟩

theorem ptFx_key {ev : MergeEv} {m : NodeId} {i j : NodeInfo} (h : ptFx P ev m (some i) = some j) : j.key = i.key ∧ j.stamp = i.stamp := by
  unfold ptFx at h
  cases ev <;> dsimp only at h
  case dynNode =>
    split at h
    · split at h <;> (cases h; exact ⟨rfl, rfl⟩)
    · cases h; exact ⟨rfl, rfl⟩
  case node =>
    split at h
    · split at h
      · cases h; exact ⟨rfl, rfl⟩
      · split at h <;> (cases h; exact ⟨rfl, rfl⟩)
    · cases h; exact ⟨rfl, rfl⟩
  case rmNode =>
    split at h
    · cases h
    · cases h; exact ⟨rfl, rfl⟩
  all_goals (cases h; exact ⟨rfl, rfl⟩)

/-- Where the node of an iteration comes from. -/
def MergeEv.From (τ : Spec) : MergeEv → Prop
  | .dynNode l p n t a => ∃ x, τ.nodes.find? n = some x ∧ x.key = .dyn l p ∧ x.stamp = some t ∧ x.attrs = a
  | .node l n a => ∃ x, τ.nodes.find? n = some x ∧ x.key = .static l ∧ x.attrs = a
  | .rmNode _ n => τ.key? n = none
  | _ => True

theorem ptFx_new {ev : MergeEv} {m : NodeId} {j : NodeInfo} (h : ptFx P ev m none = some j) (hs : ev.From τ) :
    τ.key? m = some j.key ∧ (∀ l, P.away l m = true → j.key ≠ .static l) := by
  unfold ptFx at h
  cases ev <;> dsimp only at h
  case dynNode l p n t a =>
    obtain ⟨x, hx, hk, -, -⟩ := hs
    split at h
    · rename_i e
      subst e
      cases h
      exact ⟨by rw [Spec.key?_eq hx, hk], fun _ _ => nofun⟩
    · cases h
  case node l n a =>
    obtain ⟨x, hx, hk, -⟩ := hs
    split at h
    · rename_i e
      subst e
      split at h
      · cases h
      · rename_i haw
        cases h
        refine ⟨by rw [Spec.key?_eq hx, hk], ?_⟩
        intro l' hl' e
        injection e with e
        subst e
        exact haw hl'
    · cases h
  case rmNode => split at h <;> cases h
  all_goals cases h

theorem ptFx_stays {ev : MergeEv} {m : NodeId} {i : NodeInfo} (hs : ev.From τ) (ht : τ.key? m ≠ none) : ∃ j, ptFx P ev m (some i) = some j := by
  unfold ptFx
  cases ev <;> dsimp only
  case dynNode =>
    split
    · split <;> exact ⟨_, rfl⟩
    · exact ⟨_, rfl⟩
  case node =>
    split
    · split
      · exact ⟨_, rfl⟩
      · split <;> exact ⟨_, rfl⟩
    · exact ⟨_, rfl⟩
  case rmNode l n =>
    rw [if_neg]
    · exact ⟨_, rfl⟩
    · rintro rfl; exact ht hs
  all_goals exact ⟨_, rfl⟩

theorem plan_one (P : MergePar) (σ : Spec) (ev : MergeEv) : plan P σ ev = [] ∨ ∃ op, plan P σ ev = [op] ∧ op.modest = true := by
  cases ev with
  | create l p => exact .inr ⟨_, rfl, rfl⟩
  | dynNode l p n t a =>
    rw [plan_dynNode]
    split
    · split
      · exact .inr ⟨_, rfl, rfl⟩
      · exact .inl rfl
    · exact .inr ⟨_, rfl, rfl⟩
  | rmNode l n => exact .inr ⟨_, rfl, rfl⟩
  | rmEdge l a b =>
    rw [plan_rmEdge]
    split
    · exact .inr ⟨_, rfl, rfl⟩
    · exact .inl rfl
  | node l n a =>
    rw [plan_node]
    split
    · exact .inl rfl
    · split
      · split
        · exact .inr ⟨_, rfl, rfl⟩
        · exact .inl rfl
      · exact .inr ⟨_, rfl, rfl⟩
  | edge k s t s' t' a =>
    rw [plan_edge]
    split
    · exact .inl rfl
    · split
      · exact .inl rfl
      · split
        · exact .inr ⟨_, rfl, rfl⟩
        · exact .inl rfl
  | inter s t a =>
    rw [plan_inter]
    split
    · exact .inl rfl
    · refine .inr ⟨_, rfl, ?_⟩
      cases P.cfg.enforceParent <;> rfl

/-- What stays true along a merge: `σ0` is the receiver before, `τ` the other graph. -/
structure MInv (P : MergePar) (σ0 τ : Spec) (g : Graph) (σ : Spec) : Prop where
  r : R g σ
  w : SWF σ
  ids : σ.layerIds = σ0.layerIds
  keys : ∀ n k, σ.key? n = some k → σ0.key? n = some k ∨ (σ0.key? n = none ∧ τ.key? n = some k)
  stays : ∀ n k, σ0.key? n = some k → τ.key? n ≠ none → σ.key? n = some k
  away : ∀ l n, P.away l n = true → σ.key? n ≠ some (.static l)
  merged : ∀ l n, g.isMerged (.static l) n ↔ P.away l n = true

theorem plan_key_old (ev : MergeEv) (hf : ev.Fits σ) {n : NodeId} {k k' : LayerKey} (h : σ.key? n = some k)
    (h' : (σ.after (plan P σ ev)).key? n = some k') : k' = k := by
  obtain ⟨i, hi, rfl⟩ := Spec.exists_of_key? h
  obtain ⟨j, hj, rfl⟩ := Spec.exists_of_key? h'
  rw [plan_nodes ev hf, hi] at hj
  exact (ptFx_key hj).1

theorem MInv.step {ev : MergeEv} (h : MInv P σ0 τ g σ) (hd : Does g σ (plan P σ ev) g') (hf : ev.Fits σ) (hs : ev.From τ) :
    MInv P σ0 τ g' (σ.after (plan P σ ev)) := by
  have hcase : ∀ n k, (σ.after (plan P σ ev)).key? n = some k → σ.key? n = some k ∨ (σ.key? n = none ∧ τ.key? n = some k ∧ ∀ l, P.away l n = true → k ≠ .static l) := by
    intro n k hk
    cases hn : σ.key? n with
    | some k' => exact .inl (by rw [plan_key_old ev hf hn hk])
    | none =>
      obtain ⟨j, hj, rfl⟩ := Spec.exists_of_key? hk
      have hn' : σ.nodes.find? n = none := by simpa [Spec.key?] using hn
      rw [plan_nodes ev hf, hn'] at hj
      obtain ⟨a, b⟩ := ptFx_new hj hs
      exact .inr ⟨rfl, a, b⟩
  have haway : ∀ l n, P.away l n = true → (σ.after (plan P σ ev)).key? n ≠ some (.static l) := by
    intro l n ha hk
    rcases hcase n _ hk with h1 | ⟨-, -, h3⟩
    · exact h.away l n ha h1
    · exact h3 l ha rfl
  refine ⟨hd.rep.1, hd.rep.2, (plan_frame ev hf).1.trans h.ids, ?_, ?_, haway, ?_⟩
  · intro n k hk
    rcases hcase n k hk with h1 | ⟨h1, h2, -⟩
    · exact h.keys n k h1
    · cases h0 : σ0.key? n with
      | none => exact .inr ⟨rfl, h2⟩
      | some k0 =>
        have := h.stays n k0 h0 (by rw [h2]; exact nofun)
        rw [h1] at this; cases this
  · intro n k h0 ht
    have h1 := h.stays n k h0 ht
    obtain ⟨i, hi, rfl⟩ := Spec.exists_of_key? h1
    obtain ⟨j, hj⟩ := ptFx_stays (P := P) (i := i) hs ht
    rw [Spec.key?, plan_nodes ev hf, hi, hj, Option.map_some, (ptFx_key hj).1]
  · intro l n
    rcases plan_one P σ ev with h0 | ⟨op, h0, hm⟩
    · rw [h0] at hd
      obtain ⟨outs, e⟩ := hd.run
      simp only [Graph.run, Res.pure_eq, Res.ok.injEq, Prod.mk.injEq] at e
      rw [← e.1]; exact h.merged l n
    · have hd' := hd
      rw [h0] at hd'
      rw [hd'.merged_one hm, ← h.merged]
      constructor
      · exact fun hh => hh.2
      · intro hh
        refine ⟨?_, hh⟩
        have := haway l n ((h.merged l n).1 hh)
        rw [h0] at this
        exact this

end
end Verif
