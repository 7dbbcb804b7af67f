import Verif.Lemmas.Search
/-! # The searches of the code simulate the reference loop -/

namespace Verif
namespace Search

/-- `s` holds the initially seen nodes `S0` and the nodes of `d`, as far as nodes in `W` are concerned. -/
def Agree (S0 : NodeId → Bool) (W : NodeId → Prop) (s : OSet NodeId) (d : OMap NodeId Nat) : Prop :=
  ∀ x, W x → s.contains x = (S0 x || d.contains x)

/-- One neighbour loop against the reference, for a body that pushes the unseen neighbours satisfying `p`. -/
theorem fold_sim {S0 : NodeId → Bool} {W : NodeId → Prop} {p : NodeId → Bool} {F : OSet NodeId × List NodeId → NodeId → Res (OSet NodeId × List NodeId)}
    {c : Nat} (nbs : List NodeId)
    (hp : ∀ m ∈ nbs, p m = true → W m ∧ S0 m = false)
    (hF : ∀ s out m, m ∈ nbs →
      (p m = true → F (s, out) m = .ok (if s.contains m then (s, out) else (s.add m, out ++ [m]))) ∧
      (p m = false → ∃ s', F (s, out) m = .ok (s', out) ∧ ∀ x, W x → s'.contains x = s.contains x)) :
    ∀ s d out, Agree S0 W s d → ∃ s', foldRes F (s, out) nbs = .ok (s', ((nbs.filter p).foldl (refPush c) (d, out)).2) ∧
      Agree S0 W s' ((nbs.filter p).foldl (refPush c) (d, out)).1 := by
  induction nbs with
  | nil => intro s d out h; exact ⟨s, rfl, h⟩
  | cons m nbs ih =>
    have ih := ih (fun x hx => hp x (List.mem_cons_of_mem _ hx)) (fun s out x hx => hF s out x (List.mem_cons_of_mem _ hx))
    intro s d out h
    have hFm := hF s out m List.mem_cons_self
    cases hpm : p m with
    | false =>
      obtain ⟨s', e, hs'⟩ := hFm.2 hpm
      have h' : Agree S0 W s' d := fun x hx => by rw [hs' x hx, h x hx]
      obtain ⟨s'', e2, h2⟩ := ih s' d out h'
      refine ⟨s'', ?_, ?_⟩
      · rw [foldRes_cons, e, Res.bind_ok, e2, List.filter_cons_of_neg (by simp [hpm])]
      · rw [List.filter_cons_of_neg (by simp [hpm])]; exact h2
    | true =>
      have e := hFm.1 hpm
      obtain ⟨hW, hS⟩ := hp m List.mem_cons_self hpm
      have hcm : s.contains m = d.contains m := by rw [h m hW, hS, Bool.false_or]
      rw [List.filter_cons_of_pos hpm, List.foldl_cons, foldRes_cons, e, Res.bind_ok]
      by_cases hc : d.contains m = true
      · have e1 : refPush c (d, out) m = (d, out) := by unfold refPush; rw [if_pos hc]
        rw [if_pos (hcm.trans hc), e1]
        exact ih s d out h
      · have e1 : refPush c (d, out) m = (d.insert m c, out ++ [m]) := by unfold refPush; rw [if_neg hc]
        rw [if_neg (by rw [hcm]; exact hc), e1]
        refine ih _ _ _ ?_
        intro x hx
        rw [OMap.contains_add, OMap.contains_insert, h x hx]
        cases S0 x <;> cases d.contains x <;> simp

theorem foldRes_pure {σ α : Type} (f : σ → α → σ) (s : σ) (l : List α) : foldRes (fun s a => .ok (f s a)) s l = .ok (l.foldl f s) := by
  induction l generalizing s with
  | nil => rfl
  | cons a l ih => simp [ih]

/-- Total correctness of a seen-set search. -/
theorem seen_total {body : OSet NodeId → NodeId → Res (OSet NodeId × List NodeId)} {adj : NodeId → List NodeId} {S0 : NodeId → Bool}
    {W : NodeId → Prop} {roots V : List NodeId} (hr : roots.Nodup) (hV : ∀ r ∈ roots, r ∈ V) (hadj : ∀ a ∈ V, ∀ b ∈ adj a, b ∈ V)
    (hbody : ∀ n, Reach (fun a b => b ∈ adj a) roots n → ∀ s d c, Agree S0 W s d →
      ∃ s', body s n = .ok (s', ((adj n).foldl (refPush c) (d, [])).2) ∧ Agree S0 W s' ((adj n).foldl (refPush c) (d, [])).1)
    {s0 : OSet NodeId} (hs0 : ∀ x, W x → s0.contains x = (S0 x || decide (x ∈ roots))) (fuel : Nat) (hf : V.length ≤ fuel) :
    ∃ s tr, loop body fuel s0 roots [] = some (.ok (s, tr)) ∧ RefResult adj none roots tr ∧
      ∀ x, W x → s.contains x = (S0 x || decide (x ∈ tr)) := by
  obtain ⟨d, tr, h1, h2⟩ := ref_total (limit := none) hr hV hadj fuel hf
  have hst := RefInv.start (adj := adj) (limit := none) hr
  have hd0 : ∀ x, (roots.foldl (fun s r => s.insert r 0) (∅ : OMap NodeId Nat)).contains x = decide (x ∈ roots) := by
    intro x
    have := hst.known x
    rw [List.nil_append] at this
    cases hc : (roots.foldl (fun s r => s.insert r 0) (∅ : OMap NodeId Nat)).contains x
    · symm; rw [decide_eq_false_iff_not]; rw [hc] at this; simpa using this
    · symm; rw [decide_eq_true_eq]; exact this.2 hc
  have sim := loop_sim (b1 := body) (b2 := refBody adj none)
    (Rel := fun s d fr tr => Agree S0 W s d ∧ RefInv adj none roots d fr tr) (by
      rintro s d n fr tr ⟨ha, hi⟩
      obtain ⟨d', out, e1, hi'⟩ := hi.step
      obtain ⟨c, hc⟩ := OMap.contains_eq_true.1 ((hi.known n).1 (by simp))
      obtain ⟨r, hr', hw⟩ := hi.walk n c hc
      have e2 : refBody adj none d n = .ok ((adj n).foldl (refPush (c + 1)) (d, [])) := by
        unfold refBody; simp only [hc, Option.getD_some]; rw [if_neg (by simp)]
      rw [e2] at e1
      have e1 := Res.ok.inj e1
      obtain ⟨s', e3, ha'⟩ := hbody n ⟨r, hr', c, hw⟩ s d (c + 1) ha
      rw [e1] at e3 ha'
      exact ⟨s', d', out, e3, by rw [e2, e1], ha', hi'⟩)
  obtain ⟨s, e, ha, hi⟩ := sim fuel s0 _ roots [] ⟨fun x hx => by rw [hs0 x hx, hd0], hst⟩ d tr h1
  refine ⟨s, tr, e, hi.result, ?_⟩
  intro x hx
  rw [ha x hx]
  have := hi.known x
  rw [List.append_nil] at this
  cases hc : d.contains x
  · rw [hc] at this
    have : x ∉ tr := by simpa using this
    simp [this]
  · simp [this.2 hc]

theorem costPush_eq (c : Nat) (nbs : List NodeId) : ∀ (d : OMap NodeId Nat) (out : List NodeId), (∀ n j, d.find? n = some j → j ≤ c) →
    nbs.foldl (costPush false c) (d, out) = nbs.foldl (refPush c) (d, out) := by
  induction nbs with
  | nil => intro d out _; rfl
  | cons m nbs ih =>
    intro d out h
    rw [List.foldl_cons, List.foldl_cons]
    cases hm : d.find? m with
    | none =>
      have e1 : costPush false c (d, out) m = (d.insert m c, out ++ [m]) := by unfold costPush; simp only [hm]
      have e2 : refPush c (d, out) m = (d.insert m c, out ++ [m]) := by
        unfold refPush; rw [if_neg]; rw [OMap.contains_eq_false.2 hm]; simp
      rw [e1, e2]
      refine ih _ _ ?_
      intro n j hj
      rw [OMap.find?_insert] at hj
      split at hj
      · cases hj; exact Nat.le_refl _
      · exact h n j hj
    | some j =>
      have e1 : costPush false c (d, out) m = (d, out) := by unfold costPush; simp [hm, h m j hm]
      have e2 : refPush c (d, out) m = (d, out) := by
        unfold refPush; rw [if_pos (OMap.contains_eq_true.2 ⟨j, hm⟩)]
      rw [e1, e2]
      exact ih _ _ h

theorem emplace_of_find? {d : OMap NodeId Nat} {n : NodeId} {v w : Nat} (h : d.find? n = some v) : d.emplace n w = d := by
  unfold OMap.emplace; rw [if_pos (OMap.contains_eq_true.2 ⟨v, h⟩)]

/-- Total correctness of the cost-limited search. -/
theorem cost_total {g : SearchGraph} {adj : NodeId → List NodeId} {limit : Nat} {roots V : List NodeId} (hr : roots.Nodup)
    (hV : ∀ r ∈ roots, r ∈ V) (hadj : ∀ a ∈ V, ∀ b ∈ adj a, b ∈ V) (hg : ∀ a ∈ V, g.neighbors a = .ok (adj a)) (fuel : Nat) (hf : V.length ≤ fuel) :
    ∃ d tr, loop (costBody false g limit) fuel (roots.foldl (fun s r => s.insert r 0) (∅ : OMap NodeId Nat)) roots [] = some (.ok (d, tr)) ∧
      RefResult adj (some limit) roots tr := by
  obtain ⟨d, tr, h1, h2⟩ := ref_total (limit := some limit) hr hV hadj fuel hf
  have sim := loop_sim (b1 := costBody false g limit) (b2 := refBody adj (some limit))
    (Rel := fun s d fr tr => s = d ∧ RefInv adj (some limit) roots d fr tr) (by
      rintro s d n fr tr ⟨rfl, hi⟩
      obtain ⟨d', out, e1, hi'⟩ := hi.step
      obtain ⟨c, hc⟩ := OMap.contains_eq_true.1 ((hi.known n).1 (by simp))
      obtain ⟨r, hr', hw⟩ := hi.walk n c hc
      have hn : n ∈ V := Walk.closed (S := (· ∈ V)) (fun a b ha hb => hadj a ha b hb) hw (hV r hr')
      refine ⟨d', d', out, ?_, e1, rfl, hi'⟩
      rw [← e1]
      unfold costBody refBody
      simp only [emplace_of_find? hc, hc, Option.getD_some, hg n hn, Res.bind_ok, Res.pure_eq]
      by_cases hl : limit ≤ c
      · rw [if_pos hl, if_pos ⟨limit, rfl, hl⟩]
      · rw [if_neg hl, if_neg (by rintro ⟨l, e, hl'⟩; cases e; exact hl hl'), costPush_eq]
        intro m j hm
        exact hi.bound n fr rfl c hc m j hm)
  obtain ⟨s, e, rfl, hi⟩ := sim fuel _ _ roots [] ⟨rfl, RefInv.start hr⟩ d tr h1
  exact ⟨s, tr, e, hi.result⟩

/-! ## The bodies of the code -/

theorem seenBody_spec {g : SearchGraph} {adj : NodeId → List NodeId} {S0 : NodeId → Bool} {n : NodeId} (hg : g.neighbors n = .ok (adj n))
    (hS : ∀ m ∈ adj n, S0 m = false) (s : OSet NodeId) (d : OMap NodeId Nat) (c : Nat) (h : Agree S0 (fun _ => True) s d) :
    ∃ s', seenBody g s n = .ok (s', ((adj n).foldl (refPush c) (d, [])).2) ∧
      Agree S0 (fun _ => True) s' ((adj n).foldl (refPush c) (d, [])).1 := by
  have key := fold_sim (S0 := S0) (W := fun _ => True) (p := fun _ => true) (F := fun st m => .ok (seenPush st m)) (c := c) (adj n)
    (fun m hm _ => ⟨trivial, hS m hm⟩) (fun s out m _ => ⟨fun _ => by unfold seenPush; rfl, by simp⟩) s d [] h
  rw [List.filter_eq_self.2 (by simp), foldRes_pure] at key
  obtain ⟨s', e, ha⟩ := key
  exact ⟨s', by unfold seenBody; rw [hg, Res.bind_ok]; exact e, ha⟩

theorem validBody_spec {g : SearchGraph} {nbs : List NodeId} {valid : OSet NodeId} {S0 : NodeId → Bool} {n : NodeId} (hg : g.neighbors n = .ok nbs)
    (hS : ∀ m ∈ nbs, valid.contains m = true → S0 m = false) (s : OSet NodeId) (d : OMap NodeId Nat) (c : Nat) (h : Agree S0 (fun x => valid.contains x = true) s d) :
    ∃ s', validBody g valid s n = .ok (s', ((nbs.filter valid.contains).foldl (refPush c) (d, [])).2) ∧
      Agree S0 (fun x => valid.contains x = true) s' ((nbs.filter valid.contains).foldl (refPush c) (d, [])).1 := by
  have key := fold_sim (S0 := S0) (W := fun x => valid.contains x = true) (p := valid.contains) (F := fun st m => .ok (validPush valid st m)) (c := c) nbs
    (fun m hm hv => ⟨hv, hS m hm hv⟩) (fun s out m _ => ⟨fun hv => by unfold validPush; rw [hv]; rfl, fun hv => ⟨s, by
      unfold validPush; rw [hv]; simp, fun _ _ => rfl⟩⟩) s d [] h
  rw [foldRes_pure] at key
  obtain ⟨s', e, ha⟩ := key
  exact ⟨s', by unfold validBody; rw [hg, Res.bind_ok]; exact e, ha⟩

theorem filterBody_spec {g : SearchGraph} {nbs : List NodeId} {nv : Node → Bool} {ev : Edge → Bool} {S0 : NodeId → Bool} {n : NodeId}
    {nd : NodeId → Node} {ed : NodeId → Edge}
    (hg : g.neighbors n = .ok nbs) (hnd : ∀ m ∈ nbs, g.getNode m = .ok (nd m)) (hed : ∀ m ∈ nbs, g.getEdge n m = .ok (ed m))
    (hS : ∀ m ∈ nbs, nv (nd m) = true → ev (ed m) = true → S0 m = false) (s : OSet NodeId) (d : OMap NodeId Nat) (c : Nat)
    (h : Agree S0 (fun x => nv (nd x) = true) s d) :
    ∃ s', filterBody g nv ev s n = .ok (s', ((nbs.filter (fun m => nv (nd m) && ev (ed m))).foldl (refPush c) (d, [])).2) ∧
      Agree S0 (fun x => nv (nd x) = true) s' ((nbs.filter (fun m => nv (nd m) && ev (ed m))).foldl (refPush c) (d, [])).1 := by
  have key := fold_sim (S0 := S0) (W := fun x => nv (nd x) = true) (p := fun m => nv (nd m) && ev (ed m)) (F := filterPush g nv ev n) (c := c) nbs
    (fun m hm hv => by rw [Bool.and_eq_true] at hv; exact ⟨hv.1, hS m hm hv.1 hv.2⟩) (fun s out m hm => by
      constructor
      · intro hv
        rw [Bool.and_eq_true] at hv
        unfold filterPush
        by_cases hc : s.contains m = true
        · simp only [hc, if_true]
        · simp only [hc, if_false, hnd m hm, hed m hm, Res.bind_ok, hv.1, hv.2]
          simp
      · intro hv
        unfold filterPush
        by_cases hc : s.contains m = true
        · refine ⟨s, ?_, fun _ _ => rfl⟩
          simp only [hc, if_true]
        · cases h1 : nv (nd m) with
          | false =>
            refine ⟨s.add m, ?_, ?_⟩
            · simp only [hc, if_false, hnd m hm, Res.bind_ok, h1]; simp
            · intro x hx
              rw [OMap.contains_add]
              by_cases hxm : m = x
              · subst hxm; rw [h1] at hx; cases hx
              · simp [hxm]
          | true =>
            have h2 : ev (ed m) = false := by rw [h1, Bool.true_and] at hv; exact hv
            refine ⟨s, ?_, fun _ _ => rfl⟩
            simp only [hc, if_false, hnd m hm, hed m hm, Res.bind_ok, h1, h2]; simp) s d [] h
  obtain ⟨s', e, ha⟩ := key
  exact ⟨s', by unfold filterBody; rw [hg, Res.bind_ok]; exact e, ha⟩

/-! ## Components -/

/-- State of a component search: the components so far are reach classes of accepted roots, pairwise disjoint, and their nodes are seen. -/
structure CompInv (adj : NodeId → List NodeId) (W : NodeId → Prop) (R : NodeId → Prop) (seen : OSet NodeId) (comps : List (List NodeId)) : Prop where
  seen_iff : ∀ x, W x → (seen.contains x = true ↔ ∃ c ∈ comps, x ∈ c)
  cls : ∀ c ∈ comps, c.Nodup ∧ ∃ r, R r ∧ ∀ n, n ∈ c ↔ Reach (fun a b => b ∈ adj a) [r] n
  disj : comps.Pairwise (fun c c' => ∀ x ∈ c, x ∉ c')

theorem comp_step {body : OSet NodeId → NodeId → Res (OSet NodeId × List NodeId)} {adj : NodeId → List NodeId} {W R : NodeId → Prop}
    {V : List NodeId} (hadj : ∀ a ∈ V, ∀ b ∈ adj a, b ∈ V) (hW : ∀ a ∈ V, ∀ b ∈ adj a, W b) (hsym : ∀ a b, W a → b ∈ adj a → a ∈ adj b)
    (hbody : ∀ S0 n, n ∈ V → (∀ m ∈ adj n, S0 m = false) → ∀ s d c, Agree S0 W s d →
      ∃ s', body s n = .ok (s', ((adj n).foldl (refPush c) (d, [])).2) ∧ Agree S0 W s' ((adj n).foldl (refPush c) (d, [])).1)
    {seen : OSet NodeId} {comps : List (List NodeId)} (h : CompInv adj W R seen comps) {r : NodeId} (hrV : r ∈ V) (hrW : W r) (hrR : R r)
    (hr : seen.contains r = false) (hRW : ∀ r, R r → W r ∧ r ∈ V) {fuel : Nat} (hf : V.length ≤ fuel) :
    ∃ seen' tr, loop body fuel (seen.add r) [r] [] = some (.ok (seen', tr)) ∧ CompInv adj W R seen' (comps ++ [tr]) ∧ r ∈ tr := by
  let S0 : NodeId → Bool := fun x => decide (∃ c ∈ comps, x ∈ c)
  have hclW : ∀ {r0 k n}, W r0 → r0 ∈ V → Walk (fun a b => b ∈ adj a) k r0 n → W n ∧ n ∈ V := by
    intro r0 k n h1 h2 hw
    exact Walk.closed (S := fun x => W x ∧ x ∈ V) (fun a b ha hb => ⟨hW a ha.2 b hb, hadj a ha.2 b hb⟩) hw ⟨h1, h2⟩
  have hS0r : ¬ ∃ c ∈ comps, r ∈ c := by rw [← h.seen_iff r hrW]; simp [hr]
  -- nodes reachable from `r` are not in earlier components
  have hnew : ∀ {k n}, Walk (fun a b => b ∈ adj a) k r n → ¬ ∃ c ∈ comps, n ∈ c := by
    intro k n hw
    induction hw with
    | nil => exact hS0r
    | @snoc k _ b c' hw e ih =>
      rintro ⟨c, hc, hn⟩
      obtain ⟨_, r0, hr0, hiff⟩ := h.cls c hc
      obtain ⟨r1, hr1, j, hj⟩ := (hiff c').1 hn
      rw [List.mem_singleton] at hr1; subst hr1
      have hb : W b := (hclW hrW hrV hw).1
      exact ih hrV hrW hrR hr hS0r ⟨c, hc, (hiff b).2 ⟨r1, by simp, j + 1, .snoc hj (hsym b c' hb e)⟩⟩
  obtain ⟨s, tr, e, hres, hag⟩ := seen_total (body := body) (adj := adj) (S0 := S0) (W := W) (roots := [r]) (V := V) (by simp)
    (by simpa using hrV) hadj (by
      rintro n ⟨r0, hr0, k, hw⟩ s d c ha
      rw [List.mem_singleton] at hr0; subst hr0
      refine hbody S0 n (hclW hrW hrV hw).2 ?_ s d c ha
      intro m hm
      exact decide_eq_false (hnew (.snoc hw hm))) (s0 := seen.add r) (by
      intro x hx
      rw [OMap.contains_add]
      by_cases hxr : x = r
      · subst hxr; simp
      · have h1 : (decide (x ∈ [r])) = false := by simp [hxr]
        have h2 : ¬ r = x := fun hh => hxr hh.symm
        rw [h1]
        have := h.seen_iff x hx
        by_cases hc : ∃ c ∈ comps, x ∈ c
        · rw [this.2 hc]; simp [S0, hc]
        · have h3 : seen.contains x = false := by
            cases h4 : seen.contains x with
            | false => rfl
            | true => exact absurd (this.1 h4) hc
          rw [h3]; simp only [S0, decide_eq_false hc]; simp [h2]) fuel hf
  have hmem : ∀ n, n ∈ tr ↔ Reach (fun a b => b ∈ adj a) [r] n := by
    intro n; rw [hres.mem]; simp [Reach]
  refine ⟨s, tr, e, ⟨?_, ?_, ?_⟩, ?_⟩
  · intro x hx
    rw [hag x hx, Bool.or_eq_true, decide_eq_true_eq, decide_eq_true_eq]
    constructor
    · rintro (⟨c, h1, h2⟩ | h1)
      · exact ⟨c, List.mem_append_left _ h1, h2⟩
      · exact ⟨tr, by simp, h1⟩
    · rintro ⟨c, h1, h2⟩
      rw [List.mem_append, List.mem_singleton] at h1
      rcases h1 with h1 | rfl
      · exact .inl ⟨c, h1, h2⟩
      · exact .inr h2
  · intro c hc
    rw [List.mem_append, List.mem_singleton] at hc
    rcases hc with hc | rfl
    · exact h.cls c hc
    · exact ⟨hres.nodup, r, hrR, hmem⟩
  · rw [List.pairwise_append]
    refine ⟨h.disj, by simp, ?_⟩
    intro c hc c' hc' x hx hx'
    rw [List.mem_singleton] at hc'; subst hc'
    obtain ⟨r0, hr0, k, hw⟩ := (hmem x).1 hx'
    rw [List.mem_singleton] at hr0; subst hr0
    exact hnew hw ⟨c, hc, hx⟩
  · rw [hmem]; exact ⟨r, by simp, 0, .nil r⟩

/-- A `for` loop of component searches. -/
theorem comp_loop {α : Type} {step : OSet NodeId × List (List NodeId) → α → Option (Res (OSet NodeId × List (List NodeId)))}
    {adj : NodeId → List NodeId} {W R : NodeId → Prop} {key : α → NodeId} (hRW : ∀ r, R r → W r)
    (l : List α)
    (hskip : ∀ st a, a ∈ l → (¬ R (key a) ∨ st.1.contains (key a) = true) → step st a = some (.ok st))
    (hrun : ∀ seen comps a, a ∈ l → CompInv adj W R seen comps → R (key a) → seen.contains (key a) = false →
      ∃ seen' tr, step (seen, comps) a = some (.ok (seen', comps ++ [tr])) ∧ CompInv adj W R seen' (comps ++ [tr]) ∧ key a ∈ tr) :
    ∀ seen comps, CompInv adj W R seen comps → ∃ seen' comps', forLoop step (seen, comps) l = some (.ok (seen', comps')) ∧
      CompInv adj W R seen' comps' ∧ (∀ c ∈ comps, c ∈ comps') ∧ ∀ a ∈ l, R (key a) → ∃ c ∈ comps', key a ∈ c := by
  induction l with
  | nil => intro seen comps h; exact ⟨seen, comps, rfl, h, fun _ => id, by simp⟩
  | cons a l ih =>
    have ih := ih (fun st b hb => hskip st b (List.mem_cons_of_mem _ hb)) (fun s c b hb => hrun s c b (List.mem_cons_of_mem _ hb))
    intro seen comps h
    have hs := hskip (seen, comps) a List.mem_cons_self
    have go : ∀ seen1 comps1, step (seen, comps) a = some (.ok (seen1, comps1)) → CompInv adj W R seen1 comps1 → (∀ c ∈ comps, c ∈ comps1) →
        (R (key a) → ∃ c ∈ comps1, key a ∈ c) → ∃ seen' comps', forLoop step (seen, comps) (a :: l) = some (.ok (seen', comps')) ∧
      CompInv adj W R seen' comps' ∧ (∀ c ∈ comps, c ∈ comps') ∧ ∀ b ∈ a :: l, R (key b) → ∃ c ∈ comps', key b ∈ c := by
      intro seen1 comps1 e h1 hsub hin
      obtain ⟨seen', comps', e2, h2, h3, h4⟩ := ih seen1 comps1 h1
      refine ⟨seen', comps', ?_, h2, fun c hc => h3 c (hsub c hc), ?_⟩
      · unfold forLoop; rw [e]; exact e2
      · intro b hb hRb
        rw [List.mem_cons] at hb
        rcases hb with rfl | hb
        · obtain ⟨c, hc, hx⟩ := hin hRb; exact ⟨c, h3 c hc, hx⟩
        · exact h4 b hb hRb
    by_cases hR : R (key a)
    · cases hc : seen.contains (key a) with
      | true => exact go seen comps (hs (.inr hc)) h (fun _ => id) (fun _ => (h.seen_iff _ (hRW _ hR)).1 hc)
      | false =>
        obtain ⟨seen1, tr, e, h1, h2⟩ := hrun seen comps a List.mem_cons_self h hR hc
        exact go seen1 _ e h1 (fun c hc => List.mem_append_left _ hc) (fun _ => ⟨tr, by simp, h2⟩)
    · exact go seen comps (hs (.inl hR)) h (fun _ => id) (fun hh => absurd hh hR)

end Search
end Verif
