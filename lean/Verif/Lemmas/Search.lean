import Verif.Model.Search
import Verif.Spec.Search
/-! # Correctness of the breadth-first loop -/

namespace Verif
namespace Search

/-- Total correctness of the frontier loop from an invariant. -/
theorem loop_total {σ : Type} {body : σ → NodeId → Res (σ × List NodeId)} {Inv : σ → List NodeId → List NodeId → Prop} {N : Nat}
    (hstep : ∀ s n fr tr, Inv s (n :: fr) tr → ∃ s' out, body s n = .ok (s', out) ∧ Inv s' (fr ++ out) (tr ++ [n]))
    (hN : ∀ s fr tr, Inv s fr tr → tr.length ≤ N) :
    ∀ fuel s fr tr, Inv s fr tr → N ≤ fuel + tr.length → ∃ s' tr', loop body fuel s fr tr = some (.ok (s', tr')) ∧ Inv s' [] tr' := by
  intro fuel
  induction fuel with
  | zero =>
    intro s fr tr h hf
    cases fr with
    | nil => exact ⟨s, tr, rfl, h⟩
    | cons n fr =>
      obtain ⟨s', out, _, h2⟩ := hstep _ _ _ _ h
      have := hN _ _ _ h2
      simp at this
      omega
  | succ fuel ih =>
    intro s fr tr h hf
    cases fr with
    | nil => exact ⟨s, tr, by unfold loop; rfl, h⟩
    | cons n fr =>
      obtain ⟨s', out, h1, h2⟩ := hstep _ _ _ _ h
      obtain ⟨s'', tr', h3, h4⟩ := ih s' (fr ++ out) (tr ++ [n]) h2 (by simp; omega)
      refine ⟨s'', tr', ?_, h4⟩
      unfold loop
      rw [h1]
      exact h3

/-- Two loops whose bodies push the same nodes have the same trace. -/
theorem loop_sim {σ τ : Type} {b1 : σ → NodeId → Res (σ × List NodeId)} {b2 : τ → NodeId → Res (τ × List NodeId)}
    {Rel : σ → τ → List NodeId → List NodeId → Prop}
    (hstep : ∀ s t n fr tr, Rel s t (n :: fr) tr → ∃ s' t' out, b1 s n = .ok (s', out) ∧ b2 t n = .ok (t', out) ∧ Rel s' t' (fr ++ out) (tr ++ [n])) :
    ∀ fuel s t fr tr, Rel s t fr tr → ∀ t' tr', loop b2 fuel t fr tr = some (.ok (t', tr')) →
      ∃ s', loop b1 fuel s fr tr = some (.ok (s', tr')) ∧ Rel s' t' [] tr' := by
  intro fuel
  induction fuel with
  | zero =>
    intro s t fr tr h t' tr' hl
    cases fr with
    | nil => simp only [loop, Option.some.injEq, Res.ok.injEq, Prod.mk.injEq] at hl; obtain ⟨rfl, rfl⟩ := hl; exact ⟨s, rfl, h⟩
    | cons n fr => simp [loop] at hl
  | succ fuel ih =>
    intro s t fr tr h t' tr' hl
    cases fr with
    | nil =>
      simp only [loop, Option.some.injEq, Res.ok.injEq, Prod.mk.injEq] at hl; obtain ⟨rfl, rfl⟩ := hl
      exact ⟨s, by unfold loop; rfl, h⟩
    | cons n fr =>
      obtain ⟨s1, t1, out, e1, e2, h2⟩ := hstep _ _ _ _ _ h
      unfold loop at hl
      rw [e2] at hl
      obtain ⟨s', e3, h3⟩ := ih _ _ _ _ h2 _ _ hl
      refine ⟨s', ?_, h3⟩
      unfold loop
      rw [e1]
      exact e3

/-! ## Walks -/

end Search

theorem Walk.within_zero {adj : NodeId → NodeId → Prop} {a b : NodeId} (h : Walk adj 0 a b) : a = b := by
  cases h; rfl

theorem Walk.trans {adj : NodeId → NodeId → Prop} {i j : Nat} {a b c : NodeId} (h : Walk adj i a b) (h' : Walk adj j b c) :
    Walk adj (i + j) a c := by
  induction h' with
  | nil => exact h
  | snoc _ e ih => exact .snoc (ih h) e

theorem Walk.symm {adj : NodeId → NodeId → Prop} (hs : ∀ a b, adj a b → adj b a) {i : Nat} {a b : NodeId} (h : Walk adj i a b) :
    Walk adj i b a := by
  induction h with
  | nil => exact .nil _
  | snoc _ e ih =>
    have := Walk.trans (.snoc (.nil _) (hs _ _ e)) ih
    rwa [Nat.add_comm, Nat.zero_add] at this

/-- A set closed under adjacency is closed under walks. -/
theorem Walk.closed {adj : NodeId → NodeId → Prop} {S : NodeId → Prop} (hs : ∀ a b, S a → adj a b → S b) {i : Nat} {a b : NodeId}
    (h : Walk adj i a b) (ha : S a) : S b := by
  induction h with
  | nil => exact ha
  | snoc _ e ih => exact hs _ _ (ih ha) e

namespace Search

/-! ## The reference loop: costs, optional limit -/

/-- Reference body: record the distance of every node when first met; do not expand nodes at the limit. -/
def refPush (c : Nat) (st : OMap NodeId Nat × List NodeId) (m : NodeId) : OMap NodeId Nat × List NodeId :=
  if st.1.contains m then st else (st.1.insert m c, st.2 ++ [m])

def refBody (adj : NodeId → List NodeId) (limit : Option Nat) (costs : OMap NodeId Nat) (n : NodeId) : Res (OMap NodeId Nat × List NodeId) :=
  let c := (costs.find? n).getD 0
  if (∃ l, limit = some l ∧ l ≤ c) then .ok (costs, [])
  else .ok ((adj n).foldl (refPush (c + 1)) (costs, []))

theorem refPush_spec (c : Nat) (nbs : List NodeId) : ∀ (d : OMap NodeId Nat) (out : List NodeId),
    let r := nbs.foldl (refPush c) (d, out)
    ∃ new, r.2 = out ++ new ∧ new.Nodup ∧ (∀ m, m ∈ new ↔ m ∈ nbs ∧ d.find? m = none) ∧
      (∀ m, r.1.find? m = if m ∈ new then some c else d.find? m) := by
  induction nbs with
  | nil => intro d out; exact ⟨[], by simp, by simp, by simp, by simp⟩
  | cons a nbs ih =>
    intro d out
    simp only [List.foldl_cons]
    by_cases hc : d.contains a = true
    · have e : refPush c (d, out) a = (d, out) := by unfold refPush; rw [if_pos hc]
      rw [e]
      obtain ⟨new, h1, h2, h3, h4⟩ := ih d out
      refine ⟨new, h1, h2, ?_, h4⟩
      intro m
      rw [h3, List.mem_cons]
      constructor
      · rintro ⟨x, y⟩; exact ⟨.inr x, y⟩
      · rintro ⟨x | x, y⟩
        · subst x; obtain ⟨v, hv⟩ := OMap.contains_eq_true.1 hc; rw [hv] at y; cases y
        · exact ⟨x, y⟩
    · have hn : d.find? a = none := OMap.contains_eq_false.1 (by simpa using hc)
      have e : refPush c (d, out) a = (d.insert a c, out ++ [a]) := by unfold refPush; rw [if_neg hc]
      rw [e]
      obtain ⟨new, h1, h2, h3, h4⟩ := ih (d.insert a c) (out ++ [a])
      have ha : a ∉ new := by rw [h3, OMap.find?_insert_self]; simp
      refine ⟨a :: new, by simp [h1], by simp [ha, h2], ?_, ?_⟩
      · intro m
        rw [List.mem_cons, h3, List.mem_cons, OMap.find?_insert]
        by_cases hm : a = m
        · subst hm; simp [hn]
        · have : ¬ m = a := fun h => hm h.symm
          simp [hm, this]
      · intro m
        rw [h4, OMap.find?_insert]
        by_cases hm : a = m
        · subst hm; simp [ha]
        · have : ¬ m = a := fun h => hm h.symm
          simp [hm, this]

/-- Invariant of the reference loop. -/
structure RefInv (adj : NodeId → List NodeId) (limit : Option Nat) (roots : List NodeId) (d : OMap NodeId Nat) (fr tr : List NodeId) : Prop where
  nodup : (tr ++ fr).Nodup
  known : ∀ n, n ∈ tr ++ fr ↔ d.contains n = true
  walk : ∀ n k, d.find? n = some k → ∃ r ∈ roots, Walk (fun a b => b ∈ adj a) k r n
  sorted : (tr ++ fr).Pairwise (fun a b => ∀ i j, d.find? a = some i → d.find? b = some j → i ≤ j)
  bound : ∀ h t, fr = h :: t → ∀ k, d.find? h = some k → ∀ n j, d.find? n = some j → j ≤ k + 1
  done : ∀ x ∈ tr, ∀ k, d.find? x = some k → (∀ l, limit = some l → k < l) → ∀ y ∈ adj x, ∃ j, d.find? y = some j ∧ j ≤ k + 1
  root : ∀ r ∈ roots, d.find? r = some 0
  lim : ∀ n k, d.find? n = some k → ∀ l, limit = some l → k ≤ l

theorem RefInv.start {adj : NodeId → List NodeId} {limit : Option Nat} {roots : List NodeId} (hr : roots.Nodup) :
    RefInv adj limit roots (roots.foldl (fun s r => s.insert r 0) (∅ : OMap NodeId Nat)) roots [] := by
  have key : ∀ (l : List NodeId) (d : OMap NodeId Nat) n, (l.foldl (fun s r => s.insert r 0) d).find? n = if n ∈ l then some 0 else d.find? n := by
    intro l
    induction l with
    | nil => intro d n; simp
    | cons a l ih =>
      intro d n
      rw [List.foldl_cons, ih, OMap.find?_insert]
      by_cases h1 : n ∈ l
      · simp [h1]
      · by_cases h2 : a = n
        · subst h2; simp
        · have : ¬ n = a := fun h => h2 h.symm
          simp [h1, h2, this]
  have fnd : ∀ n, (roots.foldl (fun s r => s.insert r 0) (∅ : OMap NodeId Nat)).find? n = if n ∈ roots then some 0 else none := by
    intro n; rw [key]; rfl
  have val : ∀ n k, (roots.foldl (fun s r => s.insert r 0) (∅ : OMap NodeId Nat)).find? n = some k → n ∈ roots ∧ k = 0 := by
    intro n k h
    rw [fnd] at h
    split at h
    · cases h; exact ⟨by assumption, rfl⟩
    · cases h
  refine ⟨hr, ?_, ?_, ?_, ?_, by simp, ?_, ?_⟩
  · intro n
    rw [OMap.contains_eq_true, fnd]
    by_cases h : n ∈ roots
    · simp [h]
    · simp [h]
  · intro n k h
    obtain ⟨h1, rfl⟩ := val n k h
    exact ⟨n, h1, .nil n⟩
  · refine List.Pairwise.imp_of_mem (R := fun _ _ => True) ?_ (List.pairwise_of_forall (by simp))
    intro a b _ _ _ i j h1 h2
    rw [(val _ _ h1).2, (val _ _ h2).2]; exact Nat.le_refl _
  · intro h t _ k _ n j h2
    rw [(val _ _ h2).2]; exact Nat.zero_le _
  · intro r h; rw [fnd, if_pos h]
  · intro n k h l _; rw [(val _ _ h).2]; exact Nat.zero_le _

theorem RefInv.step {adj : NodeId → List NodeId} {limit : Option Nat} {roots : List NodeId} {d : OMap NodeId Nat} {n : NodeId}
    {fr tr : List NodeId} (h : RefInv adj limit roots d (n :: fr) tr) :
    ∃ d' out, refBody adj limit d n = .ok (d', out) ∧ RefInv adj limit roots d' (fr ++ out) (tr ++ [n]) := by
  have hq : tr ++ (n :: fr) = (tr ++ [n]) ++ fr := by simp
  obtain ⟨c, hc⟩ := OMap.contains_eq_true.1 ((h.known n).1 (by simp))
  have hle : ∀ x ∈ tr ++ [n], ∀ k, d.find? x = some k → k ≤ c := by
    intro x hx k hk
    have hs := h.sorted
    rw [List.pairwise_append] at hs
    rw [List.mem_append, List.mem_singleton] at hx
    rcases hx with hx | rfl
    · exact hs.2.2 x hx n (by simp) k c hk hc
    · rw [hc] at hk; cases hk; exact Nat.le_refl _
  have hfrle : ∀ x ∈ fr, ∀ k, d.find? x = some k → c ≤ k := by
    intro x hx k hk
    have hs := h.sorted
    rw [List.pairwise_append] at hs
    exact (List.pairwise_cons.1 hs.2.1).1 x hx c k hc hk
  by_cases hlim : ∃ l, limit = some l ∧ l ≤ c
  · refine ⟨d, [], ?_, ?_⟩
    · unfold refBody; simp only [hc, Option.getD_some]; rw [if_pos hlim]
    · rw [List.append_nil]
      obtain ⟨l, hl1, hl2⟩ := hlim
      refine ⟨hq ▸ h.nodup, by rw [← hq]; exact h.known, h.walk, hq ▸ h.sorted, ?_, ?_, h.root, h.lim⟩
      · intro x t e k hk m j hm
        have h1 := h.bound n fr rfl c hc m j hm
        have h2 := hfrle x (by rw [e]; simp) k hk
        omega
      · intro x hx k hk hkl y hy
        rw [List.mem_append, List.mem_singleton] at hx
        rcases hx with hx | rfl
        · exact h.done x hx k hk hkl y hy
        · rw [hc] at hk; cases hk
          have := hkl l hl1; omega
  · obtain ⟨new, e1, e2, e3, e4⟩ := refPush_spec (c + 1) (adj n) d []
    refine ⟨((adj n).foldl (refPush (c + 1)) (d, [])).1, ((adj n).foldl (refPush (c + 1)) (d, [])).2, ?_, ?_⟩
    · unfold refBody; simp only [hc, Option.getD_some]; rw [if_neg hlim]
    · generalize (adj n).foldl (refPush (c + 1)) (d, []) = r at *
      rw [e1, List.nil_append]
      have hold : ∀ m k, d.find? m = some k → r.1.find? m = some k := by
        intro m k hm
        rw [e4, if_neg, hm]
        rw [e3, hm]; simp
      have hnew : ∀ m, m ∈ new → r.1.find? m = some (c + 1) := by
        intro m hm; rw [e4, if_pos hm]
      have hfind : ∀ m k, r.1.find? m = some k → (d.find? m = some k ∧ m ∉ new) ∨ (m ∈ new ∧ k = c + 1) := by
        intro m k hm
        rw [e4] at hm
        split at hm
        · cases hm; exact .inr ⟨by assumption, rfl⟩
        · exact .inl ⟨hm, by assumption⟩
      have hmem : ∀ m, m ∈ new → ¬ m ∈ tr ++ (n :: fr) := by
        intro m hm hin
        have := (h.known m).1 hin
        rw [OMap.contains_eq_true] at this
        obtain ⟨v, hv⟩ := this
        rw [(e3 m).1 hm |>.2] at hv
        cases hv
      have hle2 : ∀ m k, r.1.find? m = some k → k ≤ c + 1 := by
        intro m k hm
        rcases hfind m k hm with ⟨x, _⟩ | ⟨_, rfl⟩
        · exact h.bound n fr rfl c hc m k x
        · exact Nat.le_refl _
      have hq2 : tr ++ [n] ++ (fr ++ new) = tr ++ (n :: fr) ++ new := by simp
      refine ⟨?_, ?_, ?_, ?_, ?_, ?_, ?_, ?_⟩
      · rw [hq2, List.nodup_append]
        refine ⟨h.nodup, e2, ?_⟩
        intro a ha b hb hab
        subst hab
        exact hmem a hb ha
      · intro m
        rw [hq2, List.mem_append, h.known, OMap.contains_eq_true, OMap.contains_eq_true, e4]
        by_cases hm : m ∈ new
        · simp [hm]
        · simp [hm]
      · intro m k hm
        rcases hfind m k hm with ⟨x, _⟩ | ⟨x, rfl⟩
        · exact h.walk m k x
        · obtain ⟨r0, hr0, hw⟩ := h.walk n c hc
          exact ⟨r0, hr0, .snoc hw ((e3 m).1 x).1⟩
      · rw [hq2, List.pairwise_append]
        refine ⟨?_, ?_, ?_⟩
        · refine List.Pairwise.imp_of_mem ?_ h.sorted
          intro a b ha hb hab i j hi hj
          rcases hfind a i hi with ⟨x, _⟩ | ⟨x, _⟩
          · rcases hfind b j hj with ⟨y, _⟩ | ⟨y, _⟩
            · exact hab i j x y
            · exact absurd hb (hmem b y)
          · exact absurd ha (hmem a x)
        · refine List.Pairwise.imp_of_mem (R := fun _ _ => True) ?_ (List.pairwise_of_forall (by simp))
          intro a b ha hb _ i j hi hj
          rw [hnew a ha] at hi; rw [hnew b hb] at hj
          cases hi; cases hj; exact Nat.le_refl _
        · intro a _ b hb i j hi hj
          rw [hnew b hb] at hj; cases hj
          exact hle2 a i hi
      · intro x t e k hk m j hm
        have h2 : c ≤ k := by
          have hx : x ∈ fr ++ new := by rw [e]; simp
          rcases hfind x k hk with ⟨y, y'⟩ | ⟨_, rfl⟩
          · rw [List.mem_append] at hx
            rcases hx with hx | hx
            · exact hfrle x hx k y
            · exact absurd hx y'
          · omega
        have := hle2 m j hm
        omega
      · intro x hx k hk hkl y hy
        have hx' : x ∉ new := fun hh => hmem x hh (by rw [hq]; exact List.mem_append_left _ hx)
        rcases hfind x k hk with ⟨z, _⟩ | ⟨z, _⟩
        · rw [List.mem_append, List.mem_singleton] at hx
          rcases hx with hx | rfl
          · obtain ⟨j, hj1, hj2⟩ := h.done x hx k z hkl y hy
            exact ⟨j, hold _ _ hj1, hj2⟩
          · rw [hc] at z; cases z
            by_cases hyn : y ∈ new
            · exact ⟨c + 1, hnew y hyn, Nat.le_refl _⟩
            · cases hdy : d.find? y with
              | none => exact absurd ((e3 y).2 ⟨hy, hdy⟩) hyn
              | some j => exact ⟨j, hold _ _ hdy, h.bound x fr rfl c hc y j hdy⟩
        · exact absurd z hx'
      · intro r0 hr0; exact hold _ _ (h.root r0 hr0)
      · intro m k hm l hl
        rcases hfind m k hm with ⟨x, _⟩ | ⟨_, rfl⟩
        · exact h.lim m k x l hl
        · have : ¬ l ≤ c := fun hh => hlim ⟨l, hl, hh⟩
          omega

/-- What the reference loop computes. -/
theorem RefInv.final {adj : NodeId → List NodeId} {limit : Option Nat} {roots : List NodeId} {d : OMap NodeId Nat} {tr : List NodeId}
    (h : RefInv adj limit roots d [] tr) :
    ∀ k n, (∀ l, limit = some l → k ≤ l) → (∃ r ∈ roots, Walk (fun a b => b ∈ adj a) k r n) → ∃ j, d.find? n = some j ∧ j ≤ k := by
  intro k
  induction k with
  | zero =>
    rintro n _ ⟨r, hr, hw⟩
    cases hw
    exact ⟨0, h.root _ hr, Nat.le_refl _⟩
  | succ k ih =>
    rintro n hl ⟨r, hr, hw⟩
    cases hw with
    | @snoc _ _ b _ hw e =>
      obtain ⟨j, hj1, hj2⟩ := ih b (fun l hl' => Nat.le_of_succ_le (hl l hl')) ⟨r, hr, hw⟩
      have hin : b ∈ tr := by simpa using (h.known _).2 (OMap.contains_eq_true.2 ⟨j, hj1⟩)
      obtain ⟨i, hi1, hi2⟩ := h.done _ hin j hj1 (fun l hl' => by have := hl l hl'; omega) _ e
      exact ⟨i, hi1, by omega⟩

/-- The result of the reference loop, in terms of walks. -/
structure RefResult (adj : NodeId → List NodeId) (limit : Option Nat) (roots : List NodeId) (tr : List NodeId) : Prop where
  nodup : tr.Nodup
  mem : ∀ n, n ∈ tr ↔ ∃ r ∈ roots, ∃ k, (∀ l, limit = some l → k ≤ l) ∧ Walk (fun a b => b ∈ adj a) k r n
  order : ByDistance (fun a b => b ∈ adj a) roots tr

theorem RefInv.result {adj : NodeId → List NodeId} {limit : Option Nat} {roots : List NodeId} {d : OMap NodeId Nat} {tr : List NodeId}
    (h : RefInv adj limit roots d [] tr) : RefResult adj limit roots tr := by
  have hmem : ∀ n, n ∈ tr ↔ ∃ k, d.find? n = some k := by
    intro n; have := h.known n; rw [List.append_nil, OMap.contains_eq_true] at this; exact this
  refine ⟨by simpa using h.nodup, ?_, ?_⟩
  · intro n
    rw [hmem]
    constructor
    · rintro ⟨k, hk⟩
      obtain ⟨r, hr, hw⟩ := h.walk n k hk
      exact ⟨r, hr, k, h.lim n k hk, hw⟩
    · rintro ⟨r, hr, k, hl, hw⟩
      obtain ⟨j, hj, _⟩ := h.final k n hl ⟨r, hr, hw⟩
      exact ⟨j, hj⟩
  · have hs := h.sorted
    rw [List.append_nil] at hs
    refine List.Pairwise.imp_of_mem ?_ hs
    rintro a b ha hb hab k ⟨r, hr, j, hj, hw⟩
    obtain ⟨ka, ea⟩ := (hmem a).1 ha
    obtain ⟨kb, eb⟩ := (hmem b).1 hb
    obtain ⟨r', hr', hw'⟩ := h.walk a ka ea
    refine ⟨r', hr', ka, ?_, hw'⟩
    have h1 := hab ka kb ea eb
    have h2 : kb ≤ j := by
      by_cases hjl : ∀ l, limit = some l → j ≤ l
      · obtain ⟨i, hi, hi2⟩ := h.final j b hjl ⟨r, hr, hw⟩
        rw [eb] at hi; cases hi; exact hi2
      · obtain ⟨l, hl⟩ := Classical.not_forall.1 hjl
        obtain ⟨hl1, hl2⟩ := Classical.not_imp.1 hl
        have := h.lim b kb eb l hl1
        omega
    omega

/-- The reference loop ends, if the nodes that can be reached lie in a finite set. -/
theorem ref_total {adj : NodeId → List NodeId} {limit : Option Nat} {roots V : List NodeId} (hr : roots.Nodup) (hV : ∀ r ∈ roots, r ∈ V)
    (hadj : ∀ a ∈ V, ∀ b ∈ adj a, b ∈ V) (fuel : Nat) (hf : V.length ≤ fuel) :
    ∃ d tr, loop (refBody adj limit) fuel (roots.foldl (fun s r => s.insert r 0) (∅ : OMap NodeId Nat)) roots [] = some (.ok (d, tr)) ∧
      RefInv adj limit roots d [] tr := by
  have hcl : ∀ {k r n}, r ∈ roots → Walk (fun a b => b ∈ adj a) k r n → n ∈ V := by
    intro k r n hr' hw
    exact Walk.closed (S := (· ∈ V)) (fun a b ha hb => hadj a ha b hb) hw (hV r hr')
  obtain ⟨d, tr, h1, h2⟩ := loop_total (body := refBody adj limit) (Inv := RefInv adj limit roots) (N := V.length)
    (fun s n fr tr h => h.step) (fun d fr tr h => by
      refine (List.nodup_append.1 h.nodup).1.length_le_of_subset ?_
      intro n hn
      obtain ⟨k, hk⟩ := OMap.contains_eq_true.1 ((h.known n).1 (List.mem_append_left _ hn))
      obtain ⟨r, hr', hw⟩ := h.walk n k hk
      exact hcl hr' hw) fuel _ _ _ (RefInv.start hr) (by simpa using hf)
  exact ⟨d, tr, h1, h2⟩

end Search
end Verif
