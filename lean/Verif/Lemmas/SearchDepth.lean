import Verif.Lemmas.SearchLayer
import Verif.Props.Merged
/-! # The depth-limited components: the cost-limited search that revisits nodes of equal cost -/

namespace Verif
namespace Search

/-- Total correctness of the frontier loop from an invariant and a weight that decreases. -/
theorem loop_weighted {σ : Type} {body : σ → NodeId → Res (σ × List NodeId)} {Inv : σ → List NodeId → List NodeId → Prop}
    {w : σ → List NodeId → Nat}
    (hstep : ∀ s n fr tr, Inv s (n :: fr) tr → ∃ s' out, body s n = .ok (s', out) ∧ Inv s' (fr ++ out) (tr ++ [n]) ∧ w s' (fr ++ out) + 1 ≤ w s (n :: fr)) :
    ∀ fuel s fr tr, Inv s fr tr → w s fr ≤ fuel → ∃ s' tr', loop body fuel s fr tr = some (.ok (s', tr')) ∧ Inv s' [] tr' := by
  intro fuel
  induction fuel with
  | zero =>
    intro s fr tr h hf
    cases fr with
    | nil => exact ⟨s, tr, rfl, h⟩
    | cons n fr =>
      obtain ⟨s', out, _, _, h3⟩ := hstep _ _ _ _ h
      omega
  | succ fuel ih =>
    intro s fr tr h hf
    cases fr with
    | nil => exact ⟨s, tr, by unfold loop; rfl, h⟩
    | cons n fr =>
      obtain ⟨s', out, h1, h2, h5⟩ := hstep _ _ _ _ h
      obtain ⟨s'', tr', h3, h4⟩ := ih s' (fr ++ out) (tr ++ [n]) h2 (by omega)
      refine ⟨s'', tr', ?_, h4⟩
      unfold loop
      rw [h1]
      exact h3

theorem costPush_spec (c : Nat) (nbs : List NodeId) : ∀ (d : OMap NodeId Nat) (out : List NodeId),
    let r := nbs.foldl (costPush true c) (d, out)
    ∃ new, r.2 = out ++ new ∧ new.length ≤ nbs.length ∧ (∀ m ∈ new, m ∈ nbs ∧ ∀ j, d.find? m = some j → c ≤ j) ∧
      (∀ m, r.1.find? m = if m ∈ new then some c else d.find? m) ∧ (∀ m ∈ nbs, ∃ j, j ≤ c ∧ r.1.find? m = some j) := by
  induction nbs with
  | nil => intro d out; exact ⟨[], by simp, by simp, by simp, by simp, by simp⟩
  | cons a nbs ih =>
    intro d out
    simp only [List.foldl_cons]
    by_cases hc : ∃ j, d.find? a = some j ∧ j < c
    · obtain ⟨j, hj, hlt⟩ := hc
      have e : costPush true c (d, out) a = (d, out) := by simp [costPush, hj, hlt]
      rw [e]
      obtain ⟨new, h1, h2, h3, h4, h5⟩ := ih d out
      refine ⟨new, h1, by simp; omega, fun m hm => ⟨List.mem_cons_of_mem _ (h3 m hm).1, (h3 m hm).2⟩, h4, ?_⟩
      intro m hm
      rcases List.mem_cons.1 hm with rfl | hm
      · have hn : m ∉ new := fun h => absurd ((h3 m h).2 j hj) (by omega)
        exact ⟨j, by omega, by rw [h4, if_neg hn, hj]⟩
      · exact h5 m hm
    · have hge : ∀ j, d.find? a = some j → c ≤ j := fun j hj => Nat.le_of_not_lt (fun h => hc ⟨j, hj, h⟩)
      have e : costPush true c (d, out) a = (d.insert a c, out ++ [a]) := by
        unfold costPush
        cases hd : d.find? a with
        | none => rfl
        | some j => simp [Nat.not_lt.2 (hge j hd)]
      rw [e]
      obtain ⟨new, h1, h2, h3, h4, h5⟩ := ih (d.insert a c) (out ++ [a])
      refine ⟨a :: new, by simp [h1], by simp; omega, ?_, ?_, ?_⟩
      · intro m hm
        rcases List.mem_cons.1 hm with rfl | hm
        · exact ⟨List.mem_cons_self .., hge⟩
        · refine ⟨List.mem_cons_of_mem _ (h3 m hm).1, fun j hj => ?_⟩
          by_cases hma : a = m
          · subst hma; exact hge j hj
          · exact (h3 m hm).2 j (by rw [OMap.find?_insert_ne _ _ hma]; exact hj)
      · intro m
        rw [h4, OMap.find?_insert]
        by_cases hm : a = m
        · subst hm; simp
        · have : ¬ m = a := fun h => hm h.symm
          simp [hm, this]
      · intro m hm
        rcases List.mem_cons.1 hm with rfl | hm
        · exact ⟨c, Nat.le_refl _, by rw [h4, OMap.find?_insert_self]; simp⟩
        · exact h5 m hm

/-- The recorded cost of a node. -/
def cost (d : OMap NodeId Nat) (m : NodeId) : Nat := (d.find? m).getD 0

/-- Invariant of the search from one more root: `comp` are the nodes visited from earlier roots. -/
structure DepthInv (adj : NodeId → List NodeId) (limit : Nat) (roots : List NodeId) (comp : OSet NodeId) (d : OMap NodeId Nat) (fr tr : List NodeId) : Prop where
  walk : ∀ n k, d.find? n = some k → k ≤ limit ∧ ∃ r ∈ roots, Walk (fun a b => b ∈ adj a) k r n
  root : ∀ r ∈ roots, d.find? r = some 0
  known : ∀ n, d.contains n = true ↔ comp.contains n = true ∨ n ∈ tr ∨ n ∈ fr
  relaxed : ∀ n k, d.find? n = some k → n ∉ fr → k < limit → ∀ m ∈ adj n, ∃ j, j ≤ k + 1 ∧ d.find? m = some j
  sorted : fr.Pairwise (fun a b => cost d a ≤ cost d b ∧ cost d b ≤ cost d a + 1)

/-- Iterations the frontier can still cost. -/
def weight (D limit : Nat) (d : OMap NodeId Nat) (fr : List NodeId) : Nat := (fr.map (fun m => (D + 1) ^ (limit - cost d m))).sum

theorem sum_le (l : List NodeId) (f : NodeId → Nat) (b : Nat) (h : ∀ m ∈ l, f m ≤ b) : (l.map f).sum ≤ l.length * b := by
  induction l with
  | nil => simp
  | cons a l ih =>
    have h1 := h a (List.mem_cons_self ..)
    have h2 := ih (fun m hm => h m (List.mem_cons_of_mem _ hm))
    simp only [List.map_cons, List.sum_cons, List.length_cons, Nat.add_mul, Nat.one_mul]
    omega

theorem DepthInv.step {g : SearchGraph} {adj : NodeId → List NodeId} {limit D : Nat} {roots V : List NodeId} {comp : OSet NodeId}
    (hV : ∀ r ∈ roots, r ∈ V) (hadj : ∀ a ∈ V, ∀ b ∈ adj a, b ∈ V) (hg : ∀ a ∈ V, g.neighbors a = .ok (adj a)) (hD : ∀ a ∈ V, (adj a).length ≤ D)
    {d : OMap NodeId Nat} {n : NodeId} {fr tr : List NodeId} (h : DepthInv adj limit roots comp d (n :: fr) tr) :
    ∃ d' out, costBody true g limit d n = .ok (d', out) ∧ DepthInv adj limit roots comp d' (fr ++ out) (tr ++ [n]) ∧
      weight D limit d' (fr ++ out) + 1 ≤ weight D limit d (n :: fr) := by
  obtain ⟨c, hc⟩ := OMap.contains_eq_true.1 ((h.known n).2 (.inr (.inr (List.mem_cons_self ..))))
  obtain ⟨hcl, r, hr, hw⟩ := h.walk n c hc
  have hn : n ∈ V := Walk.closed (S := (· ∈ V)) (fun a b ha hb => hadj a ha b hb) hw (hV r hr)
  have hcn : cost d n = c := by simp [cost, hc]
  have hsort := List.pairwise_cons.1 h.sorted
  unfold costBody
  simp only [emplace_of_find? hc, hc, Option.getD_some, hg n hn, Res.bind_ok, Res.pure_eq]
  by_cases hl : limit ≤ c
  · rw [if_pos hl]
    refine ⟨d, [], rfl, ⟨h.walk, h.root, ?_, ?_, ?_⟩, ?_⟩
    · intro m; rw [h.known]; simp only [List.mem_cons, List.append_nil, List.mem_append, List.not_mem_nil, or_false]
      constructor
      · rintro (h | h | h | h)
        · exact .inl h
        · exact .inr (.inl (.inl h))
        · exact .inr (.inl (.inr h))
        · exact .inr (.inr h)
      · rintro (h | (h | h) | h)
        · exact .inl h
        · exact .inr (.inl h)
        · exact .inr (.inr (.inl h))
        · exact .inr (.inr (.inr h))
    · intro m k hk hm hlt
      rw [List.append_nil] at hm
      by_cases hmn : m = n
      · subst hmn; rw [hc] at hk; cases hk; omega
      · exact h.relaxed m k hk (by simp [hmn, hm]) hlt
    · rw [List.append_nil]; exact hsort.2
    · rw [List.append_nil]
      simp only [weight, List.map_cons, List.sum_cons]
      have := Nat.pow_pos (n := limit - cost d n) (Nat.succ_pos D)
      have : 1 ≤ (D + 1) ^ (limit - cost d n) := this
      omega
  · rw [if_neg hl]
    obtain ⟨new, h1, h2, h3, h4, h5⟩ := costPush_spec (c + 1) (adj n) d []
    rw [List.nil_append] at h1
    generalize hres : (adj n).foldl (costPush true (c + 1)) (d, []) = res at h1 h4 h5
    obtain ⟨d', out⟩ := res
    dsimp only at h1 h4 h5
    subst h1
    have hn' : n ∉ out := fun hm => absurd ((h3 n hm).2 c hc) (by omega)
    have hsame : ∀ m ∈ fr, d'.find? m = d.find? m := by
      intro m hm
      rw [h4]
      split
      · rename_i hmn
        obtain ⟨j, hj⟩ := OMap.contains_eq_true.1 ((h.known m).2 (.inr (.inr (List.mem_cons_of_mem _ hm))))
        have h6 := (hsort.1 m hm).2
        have h7 := (h3 m hmn).2 j hj
        simp only [cost, hj, hc, Option.getD_some] at h6
        rw [hj]
        congr 1
        omega
      · rfl
    have hcs : ∀ m ∈ fr, cost d' m = cost d m := fun m hm => by simp [cost, hsame m hm]
    have hco : ∀ m ∈ out, cost d' m = c + 1 := fun m hm => by simp [cost, h4, hm]
    refine ⟨d', out, rfl, ⟨?_, ?_, ?_, ?_, ?_⟩, ?_⟩
    · intro m k hk
      rw [h4] at hk
      split at hk
      · rename_i hm
        cases hk
        exact ⟨by omega, r, hr, .snoc hw (h3 m hm).1⟩
      · exact h.walk m k hk
    · intro q hq
      rw [h4, if_neg (fun hm => absurd ((h3 q hm).2 0 (h.root q hq)) (by omega))]
      exact h.root q hq
    · intro m
      have : d'.contains m = true ↔ m ∈ out ∨ d.contains m = true := by
        unfold OMap.contains
        rw [h4]
        split
        · rename_i hm; simp [hm]
        · rename_i hm; simp [hm]
      rw [this, h.known]
      simp only [List.mem_cons, List.mem_append, List.not_mem_nil, or_false]
      constructor
      · rintro (h | h | h | h | h)
        · exact .inr (.inr (.inr h))
        · exact .inl h
        · exact .inr (.inl (.inl h))
        · exact .inr (.inl (.inr h))
        · exact .inr (.inr (.inl h))
      · rintro (h | (h | h) | h | h)
        · exact .inr (.inl h)
        · exact .inr (.inr (.inl h))
        · exact .inr (.inr (.inr (.inl h)))
        · exact .inr (.inr (.inr (.inr h)))
        · exact .inl h
    · intro m k hk hm hlt q hq
      rw [List.mem_append] at hm
      have hmo : m ∉ out := fun h => hm (.inr h)
      rw [h4, if_neg hmo] at hk
      by_cases hmn : m = n
      · subst hmn
        rw [hc] at hk; cases hk
        obtain ⟨j, hj, hf⟩ := h5 q hq
        exact ⟨j, hj, hf⟩
      · obtain ⟨j, hj, hf⟩ := h.relaxed m k hk (by simp only [List.mem_cons, not_or]; exact ⟨hmn, fun h => hm (.inl h)⟩) hlt q hq
        rw [h4]
        by_cases hqo : q ∈ out
        · rw [if_pos hqo]
          exact ⟨c + 1, by have := (h3 q hqo).2 j hf; omega, rfl⟩
        · rw [if_neg hqo]; exact ⟨j, hj, hf⟩
    · rw [List.pairwise_append]
      refine ⟨?_, ?_, ?_⟩
      · refine List.Pairwise.imp_of_mem ?_ hsort.2
        intro a b ha hb hab
        rw [hcs a ha, hcs b hb]; exact hab
      · rw [List.pairwise_iff_getElem]
        intro i j hi hj _
        rw [hco _ (List.getElem_mem hi), hco _ (List.getElem_mem hj)]
        omega
      · intro a ha b hb
        rw [hcs a ha, hco b hb]
        have := hsort.1 a ha
        omega
    · have e1 : (fr.map (fun m => (D + 1) ^ (limit - cost d' m))) = fr.map (fun m => (D + 1) ^ (limit - cost d m)) :=
        List.map_congr_left (fun m hm => by rw [hcs m hm])
      have e2 : (out.map (fun m => (D + 1) ^ (limit - cost d' m))).sum ≤ D * (D + 1) ^ (limit - (c + 1)) := by
        refine Nat.le_trans (sum_le out _ ((D + 1) ^ (limit - (c + 1))) (fun m hm => by rw [hco m hm]; exact Nat.le_refl _)) ?_
        exact Nat.mul_le_mul_right _ (Nat.le_trans h2 (hD n hn))
      simp only [weight, List.map_append, List.sum_append, e1, List.map_cons, List.sum_cons, hcn]
      have e3 : (D + 1) ^ (limit - c) = D * (D + 1) ^ (limit - (c + 1)) + (D + 1) ^ (limit - (c + 1)) := by
        have : limit - c = (limit - (c + 1)) + 1 := by omega
        rw [this, Nat.pow_succ, Nat.mul_comm, Nat.add_mul, Nat.one_mul]
      have e4 : 1 ≤ (D + 1) ^ (limit - (c + 1)) := Nat.pow_pos (Nat.succ_pos D)
      omega

/-- What holds between two roots of one batch. -/
structure Batch (adj : NodeId → List NodeId) (limit : Nat) (roots : List NodeId) (comp : OSet NodeId) (d : OMap NodeId Nat) : Prop where
  inv : DepthInv adj limit roots comp d [] []

theorem Batch.mem {adj : NodeId → List NodeId} {limit : Nat} {roots : List NodeId} {comp : OSet NodeId} {d : OMap NodeId Nat}
    (h : Batch adj limit roots comp d) (n : NodeId) : comp.contains n = true ↔ Within (fun a b => b ∈ adj a) roots limit n := by
  have key : comp.contains n = true ↔ d.contains n = true := by rw [h.inv.known]; simp
  rw [key]
  constructor
  · intro hd
    obtain ⟨k, hk⟩ := OMap.contains_eq_true.1 hd
    obtain ⟨hl, r, hr, hw⟩ := h.inv.walk n k hk
    exact ⟨r, hr, k, hl, hw⟩
  · rintro ⟨r, hr, k, hl, hw⟩
    have : ∀ {k n}, Walk (fun a b => b ∈ adj a) k r n → k ≤ limit → ∃ j, j ≤ k ∧ d.find? n = some j := by
      clear hw hl
      intro k n hw
      induction hw with
      | nil => intro _; exact ⟨0, Nat.le_refl _, h.inv.root _ hr⟩
      | snoc _ e ih =>
        intro hl
        obtain ⟨j, hj, hf⟩ := ih hr (by omega)
        obtain ⟨i, hi, hf'⟩ := h.inv.relaxed _ j hf (by simp) (by omega) _ e
        exact ⟨i, by omega, hf'⟩
    obtain ⟨j, _, hf⟩ := this hw hl
    exact OMap.contains_eq_true.2 ⟨j, hf⟩

theorem contains_addAll (L : List NodeId) (s : OSet NodeId) (x : NodeId) :
    (L.foldl (fun s m => s.add m) s).contains x = true ↔ s.contains x = true ∨ x ∈ L := by
  induction L generalizing s with
  | nil => simp
  | cons a L ih =>
    rw [List.foldl_cons, ih, OMap.contains_add]
    by_cases hax : a = x
    · subst hax; simp
    · have : ¬ x = a := fun hh => hax hh.symm
      simp [hax, this]

/-- One more root in a batch. -/
theorem Batch.next {g : SearchGraph} {adj : NodeId → List NodeId} {limit D fuel : Nat} {roots V : List NodeId} {comp : OSet NodeId} {d : OMap NodeId Nat}
    (hV : ∀ r ∈ roots, r ∈ V) (hadj : ∀ a ∈ V, ∀ b ∈ adj a, b ∈ V) (hg : ∀ a ∈ V, g.neighbors a = .ok (adj a)) (hD : ∀ a ∈ V, (adj a).length ≤ D)
    (hf : (D + 1) ^ limit ≤ fuel) (h : Batch adj limit roots comp d) {n : NodeId} (hn : n ∈ V) :
    ∃ d' tr, loop (costBody true g limit) fuel (d.insert n 0) [n] [] = some (.ok (d', tr)) ∧
      Batch adj limit (n :: roots) (tr.foldl (fun s m => s.add m) comp) d' := by
  have hV' : ∀ r ∈ n :: roots, r ∈ V := by
    intro r hr
    rcases List.mem_cons.1 hr with rfl | hr
    · exact hn
    · exact hV r hr
  have start : DepthInv adj limit (n :: roots) comp (d.insert n 0) [n] [] := by
    refine ⟨?_, ?_, ?_, ?_, List.pairwise_singleton ..⟩
    · intro m k hk
      rw [OMap.find?_insert] at hk
      split at hk
      · rename_i e; subst e; cases hk; exact ⟨Nat.zero_le _, n, by simp, .nil _⟩
      · obtain ⟨h1, r, hr, hw⟩ := h.inv.walk m k hk
        exact ⟨h1, r, List.mem_cons_of_mem _ hr, hw⟩
    · intro r hr
      rw [OMap.find?_insert]
      split
      · rfl
      · rename_i hne
        rcases List.mem_cons.1 hr with rfl | hr
        · exact absurd rfl hne
        · exact h.inv.root r hr
    · intro m
      have hk := h.inv.known m
      rw [OMap.contains_insert]
      by_cases hm : n = m
      · subst hm; simp
      · have : ¬ m = n := fun hh => hm hh.symm
        simp only [hm, decide_false, Bool.false_or]
        rw [hk]; simp [this]
    · intro m k hk hm hlt q hq
      rw [OMap.find?_insert, if_neg (by intro hh; apply hm; rw [hh]; exact List.mem_singleton.2 rfl)] at hk
      obtain ⟨j, hj, hf'⟩ := h.inv.relaxed m k hk (by simp) hlt q hq
      rw [OMap.find?_insert]
      split
      · exact ⟨0, Nat.zero_le _, rfl⟩
      · exact ⟨j, hj, hf'⟩
  obtain ⟨d', tr, e, hi⟩ := loop_weighted (body := costBody true g limit) (Inv := DepthInv adj limit (n :: roots) comp) (w := weight D limit)
    (fun s m fr tr hi => DepthInv.step hV' hadj hg hD hi) fuel (d.insert n 0) [n] [] start
    (by simp only [weight, List.map_cons, List.map_nil, List.sum_cons, List.sum_nil, cost, OMap.find?_insert_self, Option.getD_some]; simpa using hf)
  refine ⟨d', tr, e, ⟨hi.walk, hi.root, ?_, hi.relaxed, List.Pairwise.nil⟩⟩
  intro m
  rw [hi.known, contains_addAll]
  simp

/-- State of the loop over the roots: `done` are the finished batches, `R` the roots of the layer met so far. -/
structure DepthState (adj : NodeId → List NodeId) (limit : Nat) (R : List NodeId) (J : NodeId → NodeId → Prop) (st : OMap NodeId Nat × OSet NodeId × List (OSet NodeId)) : Prop where
  sets : ∀ s ∈ st.2.2, (∃ x, s.contains x = true) ∧ (∃ B, (∀ r ∈ B, r ∈ R) ∧ ∀ n, s.contains n = true ↔ Within (fun a b => b ∈ adj a) B limit n) ∧
    ∀ x y, s.contains x = true → s.contains y = true → J x y
  now : ∃ B, (∀ r ∈ B, r ∈ R) ∧ Batch adj limit B st.2.1 st.1 ∧
    ∀ x y, st.2.1.contains x = true → st.2.1.contains y = true → J x y
  all : ∀ r ∈ R, (∃ s ∈ st.2.2, ∀ n, Within (fun a b => b ∈ adj a) [r] limit n → s.contains n = true) ∨
    ∀ n, Within (fun a b => b ∈ adj a) [r] limit n → st.2.1.contains n = true

theorem size_ne_zero {s : OSet NodeId} : (s.size != 0) = true ↔ ∃ x, s.contains x = true := by
  have h1 : s.keys.length = s.size := OMap.length_keys s
  have h2 : ∀ x, x ∈ s.keys ↔ s.contains x = true := fun x => OMap.mem_keys
  rw [bne_iff_ne, ← h1]
  constructor
  · intro h
    cases hk : s.keys with
    | nil => rw [hk] at h; exact absurd rfl h
    | cons a l => exact ⟨a, (h2 a).1 (by rw [hk]; exact List.mem_cons_self ..)⟩
  · rintro ⟨x, hx⟩ h
    have := (h2 x).2 hx
    rw [List.length_eq_zero_iff.1 h] at this
    cases this

theorem DepthState.mono {adj : NodeId → List NodeId} {limit : Nat} {R R' : List NodeId} {J : NodeId → NodeId → Prop} {st : OMap NodeId Nat × OSet NodeId × List (OSet NodeId)}
    (h : DepthState adj limit R J st) (hR : ∀ r ∈ R, r ∈ R') (hR' : ∀ r ∈ R', r ∈ R ∨ ∀ n, Within (fun a b => b ∈ adj a) [r] limit n → st.2.1.contains n = true) :
    DepthState adj limit R' J st := by
  refine ⟨?_, ?_, ?_⟩
  · intro s hs
    obtain ⟨h1, ⟨B, hB, h2⟩, h3⟩ := h.sets s hs
    exact ⟨h1, ⟨B, fun r hr => hR r (hB r hr), h2⟩, h3⟩
  · obtain ⟨B, hB, h2⟩ := h.now
    exact ⟨B, fun r hr => hR r (hB r hr), h2⟩
  · intro r hr
    rcases hR' r hr with hr | hr
    · exact h.all r hr
    · exact .inr hr

theorem DepthState.step {g : SearchGraph} {adj : NodeId → List NodeId} {limit D fuel : Nat} {V : List NodeId} {J : NodeId → NodeId → Prop}
    (hadj : ∀ a ∈ V, ∀ b ∈ adj a, b ∈ V) (hsym : ∀ a b, J a b → J b a) (htr : ∀ a b c, J a b → J b c → J a c) (hg : ∀ a ∈ V, g.neighbors a = .ok (adj a)) (hD : ∀ a ∈ V, (adj a).length ≤ D)
    (hcon : ∀ a, g.contains a = true ↔ a ∈ V)
    (hf : (D + 1) ^ limit ≤ fuel) {R : List NodeId} (hR : ∀ r ∈ R, r ∈ V) {st : OMap NodeId Nat × OSet NodeId × List (OSet NodeId)}
    (h : DepthState adj limit R J st) (n : NodeId) (hJ : n ∈ V → ∀ m, Within (fun a b => b ∈ adj a) [n] limit m → J n m) :
    ∃ st', depthStep g fuel limit st n = some (.ok st') ∧ DepthState adj limit (if g.contains n then n :: R else R) J st' := by
  by_cases hc : g.contains n = true
  case neg =>
    refine ⟨st, ?_, ?_⟩
    · unfold depthStep; simp [hc]
    · rw [if_neg hc]; exact h
  have hn : n ∈ V := (hcon n).1 hc
  rw [if_pos hc]
  have fin : ∀ (st : OMap NodeId Nat × OSet NodeId × List (OSet NodeId)), DepthState adj limit R J st →
      ((∃ x, st.2.1.contains x = true) → st.1.contains n = true) →
      ∃ st', (match loop (costBody true g limit) fuel (st.1.insert n 0) [n] [] with
        | some (.ok (costs, trace)) => some (.ok (costs, trace.foldl (fun s m => s.add m) st.2.1, st.2.2))
        | some (.throw e) => some (.throw e)
        | some .ub => some .ub
        | none => none) = some (Res.ok st') ∧ DepthState adj limit (n :: R) J st' := by
    intro st h hin
    obtain ⟨B, hB, hb, hj⟩ := h.now
    obtain ⟨d', tr, e, hb'⟩ := hb.next (fun r hr => hR r (hB r hr)) hadj hg hD hf hn
    refine ⟨(d', tr.foldl (fun s m => s.add m) st.2.1, st.2.2), by rw [e], ?_, ?_, ?_⟩
    · intro s hs
      obtain ⟨h1, ⟨B, hB, h2⟩, h3⟩ := h.sets s hs
      exact ⟨h1, ⟨B, fun r hr => List.mem_cons_of_mem _ (hB r hr), h2⟩, h3⟩
    · refine ⟨n :: B, ?_, hb', ?_⟩
      · intro r hr
        rcases List.mem_cons.1 hr with rfl | hr
        · exact List.mem_cons_self ..
        · exact List.mem_cons_of_mem _ (hB r hr)
      · -- every node of the batch is joined to `n`
        have hjn : ∀ x, (tr.foldl (fun s m => s.add m) st.2.1).contains x = true → J n x := by
          intro x hx
          obtain ⟨r, hr, k, hk, hw⟩ := (hb'.mem x).1 hx
          rcases List.mem_cons.1 hr with rfl | hr
          · exact hJ hn x ⟨r, List.mem_singleton.2 rfl, k, hk, hw⟩
          · have hx' : st.2.1.contains x = true := (hb.mem x).2 ⟨r, hr, k, hk, hw⟩
            have hn' : st.2.1.contains n = true := by
              have := (hb.inv.known n).1 (hin ⟨x, hx'⟩)
              simpa using this
            exact hj n x hn' hx'
        intro x y hx hy
        exact htr _ _ _ (hsym _ _ (hjn x hx)) (hjn y hy)
    · intro r hr
      rcases List.mem_cons.1 hr with rfl | hr
      · refine .inr (fun m hm => ?_)
        rw [show (tr.foldl (fun s m => s.add m) st.2.1).contains m = true ↔ _ from hb'.mem m]
        obtain ⟨q, hq, k, hk, hw⟩ := hm
        rw [List.mem_singleton] at hq; subst hq
        exact ⟨q, List.mem_cons_self .., k, hk, hw⟩
      · rcases h.all r hr with h1 | h1
        · exact .inl h1
        · refine .inr (fun m hm => ?_)
          show (tr.foldl (fun s m => s.add m) st.2.1).contains m = true
          rw [contains_addAll]; exact .inl (h1 m hm)
  unfold depthStep
  simp only [hc, Bool.not_true, Bool.false_eq_true, if_false]
  by_cases hnew : (!st.1.contains n && st.2.1.size != 0) = true
  · rw [if_pos hnew]
    obtain ⟨B, hB, hb, hj⟩ := h.now
    rw [Bool.and_eq_true] at hnew
    refine fin (∅, ∅, st.2.2 ++ [st.2.1]) ⟨?_, ?_, ?_⟩ ?_
    · intro s hs
      rcases List.mem_append.1 hs with hs | hs
      · exact h.sets s hs
      · rw [List.mem_singleton] at hs; subst hs
        exact ⟨size_ne_zero.1 hnew.2, ⟨B, hB, hb.mem⟩, hj⟩
    · refine ⟨[], by simp, ⟨⟨?_, by simp, ?_, ?_, List.Pairwise.nil⟩⟩, ?_⟩
      · intro n k hk; exact absurd hk (by simp)
      · intro n; simp [OMap.contains]
      · intro n k hk; exact absurd hk (by simp)
      · intro x y hx; exact absurd hx (by simp [OMap.contains])
    · intro r hr
      rcases h.all r hr with ⟨s, hs, h1⟩ | h1
      · exact .inl ⟨s, List.mem_append.2 (.inl hs), h1⟩
      · exact .inl ⟨st.2.1, List.mem_append.2 (.inr (List.mem_singleton.2 rfl)), h1⟩
    · rintro ⟨x, hx⟩; exact absurd hx (by simp [OMap.contains])
  · rw [if_neg hnew]
    refine fin st h ?_
    intro hx
    rw [Bool.and_eq_true, size_ne_zero] at hnew
    cases hh : st.1.contains n with
    | true => rfl
    | false => exact absurd ⟨by rw [hh]; rfl, hx⟩ hnew

theorem depth_loop {g : SearchGraph} {adj : NodeId → List NodeId} {limit D fuel : Nat} {V : List NodeId} {J : NodeId → NodeId → Prop}
    (hadj : ∀ a ∈ V, ∀ b ∈ adj a, b ∈ V) (hsym : ∀ a b, J a b → J b a) (htr : ∀ a b c, J a b → J b c → J a c) (hg : ∀ a ∈ V, g.neighbors a = .ok (adj a)) (hD : ∀ a ∈ V, (adj a).length ≤ D)
    (hcon : ∀ a, g.contains a = true ↔ a ∈ V) (hf : (D + 1) ^ limit ≤ fuel) (roots : List NodeId)
    (hJ : ∀ n ∈ roots, n ∈ V → ∀ m, Within (fun a b => b ∈ adj a) [n] limit m → J n m) :
    ∀ (R : List NodeId) (_ : ∀ r ∈ R, r ∈ V) (st : OMap NodeId Nat × OSet NodeId × List (OSet NodeId)), DepthState adj limit R J st →
    ∃ st', forLoop (depthStep g fuel limit) st roots = some (.ok st') ∧
      ∃ R', (∀ r, r ∈ R' ↔ r ∈ R ∨ (r ∈ roots ∧ r ∈ V)) ∧ DepthState adj limit R' J st' := by
  induction roots with
  | nil => intro R _ st h; exact ⟨st, rfl, R, by simp, h⟩
  | cons n roots ih =>
    intro R hR st h
    obtain ⟨st', e, h'⟩ := h.step hadj hsym htr hg hD hcon hf hR n (hJ n (List.mem_cons_self ..))
    obtain ⟨st'', e', R', hm, h''⟩ := ih (fun m hm => hJ m (List.mem_cons_of_mem _ hm)) _ (by
      intro r hr
      split at hr
      · rename_i hc
        rcases List.mem_cons.1 hr with rfl | hr
        · exact (hcon r).1 hc
        · exact hR r hr
      · exact hR r hr) st' h'
    refine ⟨st'', ?_, R', ?_, h''⟩
    · unfold forLoop; rw [e]; exact e'
    · intro r
      rw [hm]
      by_cases hc : g.contains n = true
      · rw [if_pos hc]
        have := (hcon n).1 hc
        simp only [List.mem_cons]
        constructor
        · rintro ((rfl | h) | h)
          · exact .inr ⟨.inl rfl, this⟩
          · exact .inl h
          · exact .inr ⟨.inr h.1, h.2⟩
        · rintro (h | ⟨rfl | h, h2⟩)
          · exact .inl (.inr h)
          · exact .inl (.inl rfl)
          · exact .inr ⟨h, h2⟩
      · rw [if_neg hc]
        simp only [List.mem_cons]
        constructor
        · rintro (h | h)
          · exact .inl h
          · exact .inr ⟨.inr h.1, h.2⟩
        · rintro (h | ⟨rfl | h, h2⟩)
          · exact .inl h
          · exact absurd ((hcon _).2 h2) hc
          · exact .inr ⟨h, h2⟩

theorem absorb_grows (cur : OSet NodeId) (l : List (OSet NodeId)) : ∀ x, cur.contains x = true → (absorb cur l).1.contains x = true := by
  induction l generalizing cur with
  | nil => exact fun _ h => h
  | cons c rest ih =>
    intro x hx
    unfold absorb
    split
    · exact ih _ x (by rw [contains_union, hx]; rfl)
    · exact ih _ x hx

theorem absorb_rest (cur : OSet NodeId) (l : List (OSet NodeId)) : ∀ s ∈ (absorb cur l).2, s ∈ l := by
  induction l generalizing cur with
  | nil => exact fun _ h => h
  | cons c rest ih =>
    intro s hs
    unfold absorb at hs
    split at hs
    · exact List.mem_cons_of_mem _ (ih _ s hs)
    · rcases List.mem_cons.1 hs with rfl | hs
      · exact List.mem_cons_self ..
      · exact List.mem_cons_of_mem _ (ih _ s hs)

theorem merged_nonempty' (n : Nat) : ∀ sets : List (OSet NodeId), sets.length ≤ n → (∀ s ∈ sets, ∃ x, s.contains x = true) →
    ∀ c ∈ mergedComponents sets, ∃ x, c.contains x = true := by
  induction n with
  | zero =>
    intro sets hl _ c hc
    cases sets with
    | nil => simp [mergedComponents] at hc
    | cons a l => simp at hl
  | succ n ih =>
    intro sets hl h c hc
    cases sets with
    | nil => simp [mergedComponents] at hc
    | cons a rest =>
      unfold mergedComponents at hc
      rcases List.mem_cons.1 hc with rfl | hc
      · obtain ⟨x, hx⟩ := h a (List.mem_cons_self ..)
        exact ⟨x, absorb_grows _ _ x hx⟩
      · have h1 := absorb_length a rest
        simp only [List.length_cons] at hl
        exact ih _ (by omega) (fun s hs => h s (List.mem_cons_of_mem _ (absorb_rest _ _ s hs))) c hc

theorem merged_nonempty (sets : List (OSet NodeId)) (h : ∀ s ∈ sets, ∃ x, s.contains x = true) :
    ∀ c ∈ mergedComponents sets, ∃ x, c.contains x = true := merged_nonempty' _ sets (Nat.le_refl _) h

end Search
end Verif
