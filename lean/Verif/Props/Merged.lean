import Verif.Props.Search
/-! # C38: merging overlapping components -/

namespace Verif
open Search

/-- `x` and `y` are in a common set of the list. -/
def Together (sets : List (OSet NodeId)) (x y : NodeId) : Prop := ∃ s ∈ sets, s.contains x = true ∧ s.contains y = true
/-- `x` and `y` are joined by a chain of overlapping sets of the list. -/
def Chained (sets : List (OSet NodeId)) (x y : NodeId) : Prop := ∃ k, Walk (Together sets) k x y

theorem Chained.trans {sets : List (OSet NodeId)} {x y z : NodeId} (h : Chained sets x y) (h' : Chained sets y z) : Chained sets x z := by
  obtain ⟨i, h⟩ := h
  obtain ⟨j, h'⟩ := h'
  exact ⟨_, h.trans h'⟩
theorem Chained.symm {sets : List (OSet NodeId)} {x y : NodeId} (h : Chained sets x y) : Chained sets y x := by
  obtain ⟨i, h⟩ := h
  exact ⟨i, Walk.symm (fun a b ⟨s, h1, h2, h3⟩ => ⟨s, h1, h3, h2⟩) h⟩
theorem Together.chained {sets : List (OSet NodeId)} {x y : NodeId} (h : Together sets x y) : Chained sets x y := ⟨1, .snoc (.nil x) h⟩

namespace Search

theorem contains_union (a b : OSet NodeId) (x : NodeId) : (union a b).contains x = (a.contains x || b.contains x) := by
  have key : ∀ (L : List NodeId) (s : OSet NodeId), (L.foldl (fun s r => s.add r) s).contains x = (s.contains x || decide (x ∈ L)) := by
    intro L
    induction L with
    | nil => intro s; simp
    | cons a L ih =>
      intro s
      rw [List.foldl_cons, ih, OMap.contains_add]
      by_cases hax : a = x
      · subst hax; simp
      · have : ¬ x = a := fun hh => hax hh.symm
        simp [hax, this]
  unfold union
  rw [key]
  congr 1
  cases h : b.contains x with
  | true => exact decide_eq_true (OMap.mem_keys.2 h)
  | false => exact decide_eq_false (fun h2 => by have := OMap.mem_keys.1 h2; simp [h] at this)

theorem meets_iff (a b : OSet NodeId) : meets a b = true ↔ ∃ x, a.contains x = true ∧ b.contains x = true := by
  unfold meets
  rw [List.any_eq_true]
  constructor
  · rintro ⟨x, h1, h2⟩; exact ⟨x, h2, OMap.mem_keys.1 h1⟩
  · rintro ⟨x, h1, h2⟩; exact ⟨x, OMap.mem_keys.2 h2, h1⟩

theorem absorb_spec (sets : List (OSet NodeId)) (l : List (OSet NodeId)) : ∀ (cur : OSet NodeId), (∀ s ∈ l, s ∈ sets) →
    (∀ x y, cur.contains x = true → cur.contains y = true → Chained sets x y) →
    (∀ x, cur.contains x = true → (absorb cur l).1.contains x = true) ∧
    (∀ s ∈ l, s ∈ (absorb cur l).2 ∨ ∀ x, s.contains x = true → (absorb cur l).1.contains x = true) ∧
    (∀ s ∈ (absorb cur l).2, s ∈ l) ∧
    (∀ x, (absorb cur l).1.contains x = true → cur.contains x = true ∨ ∃ s ∈ l, s.contains x = true) ∧
    (∀ x y, (absorb cur l).1.contains x = true → (absorb cur l).1.contains y = true → Chained sets x y) := by
  induction l with
  | nil => intro cur _ hc; exact ⟨fun _ h => h, by simp, by simp [absorb], fun _ h => .inl h, hc⟩
  | cons c rest ih =>
    intro cur hl hc
    unfold absorb
    split
    · rename_i hm
      obtain ⟨z, hz1, hz2⟩ := (meets_iff _ _).1 hm
      have hcs : c ∈ sets := hl c (List.mem_cons_self ..)
      obtain ⟨h1, h2, h3, h4, h5⟩ := ih (union cur c) (fun s hs => hl s (List.mem_cons_of_mem _ hs)) (by
        have hz : ∀ x, (union cur c).contains x = true → Chained sets x z := by
          intro x hx
          rw [contains_union, Bool.or_eq_true] at hx
          rcases hx with hx | hx
          · exact hc x z hx hz1
          · exact Together.chained ⟨c, hcs, hx, hz2⟩
        intro x y hx hy
        exact (hz x hx).trans (hz y hy).symm)
      refine ⟨fun x hx => h1 x (by rw [contains_union, hx]; rfl), ?_, fun s hs => List.mem_cons_of_mem _ (h3 s hs), ?_, h5⟩
      · intro s hs
        rcases List.mem_cons.1 hs with rfl | hs
        · exact .inr (fun x hx => h1 x (by rw [contains_union, hx, Bool.or_true]))
        · exact h2 s hs
      · intro x hx
        rcases h4 x hx with h | ⟨s, hs, h⟩
        · rw [contains_union, Bool.or_eq_true] at h
          rcases h with h | h
          · exact .inl h
          · exact .inr ⟨c, List.mem_cons_self .., h⟩
        · exact .inr ⟨s, List.mem_cons_of_mem _ hs, h⟩
    · obtain ⟨h1, h2, h3, h4, h5⟩ := ih cur (fun s hs => hl s (List.mem_cons_of_mem _ hs)) hc
      refine ⟨h1, ?_, ?_, ?_, h5⟩
      · intro s hs
        rcases List.mem_cons.1 hs with rfl | hs
        · exact .inl (List.mem_cons_self ..)
        · exact (h2 s hs).imp (List.mem_cons_of_mem _) id
      · intro s hs
        rcases List.mem_cons.1 hs with rfl | hs
        · exact List.mem_cons_self ..
        · exact List.mem_cons_of_mem _ (h3 s hs)
      · intro x hx
        exact (h4 x hx).imp id (fun ⟨s, hs, h⟩ => ⟨s, List.mem_cons_of_mem _ hs, h⟩)

theorem merged_spec (sets : List (OSet NodeId)) : ∀ (n : Nat) (l : List (OSet NodeId)), l.length ≤ n → (∀ s ∈ l, s ∈ sets) →
    (∀ s ∈ l, ∃ o ∈ mergedComponents l, ∀ x, s.contains x = true → o.contains x = true) ∧
    (∀ o ∈ mergedComponents l, ∀ x, o.contains x = true → ∃ s ∈ l, s.contains x = true) ∧
    (∀ o ∈ mergedComponents l, ∀ x y, o.contains x = true → o.contains y = true → Chained sets x y) := by
  intro n
  induction n with
  | zero =>
    intro l hl _
    cases l with
    | nil => simp [mergedComponents]
    | cons c l => simp at hl
  | succ n ih =>
    intro l hl hs
    cases l with
    | nil => simp [mergedComponents]
    | cons c rest =>
      unfold mergedComponents
      have hcs : c ∈ sets := hs c (List.mem_cons_self ..)
      obtain ⟨a1, a2, a3, a4, a5⟩ := absorb_spec sets rest c (fun s h => hs s (List.mem_cons_of_mem _ h))
        (fun x y hx hy => Together.chained ⟨c, hcs, hx, hy⟩)
      have hlen := absorb_length c rest
      obtain ⟨b1, b2, b3⟩ := ih (absorb c rest).2 (by simp at hl; omega) (fun s h => hs s (List.mem_cons_of_mem _ (a3 s h)))
      refine ⟨?_, ?_, ?_⟩
      · intro s hs'
        rcases List.mem_cons.1 hs' with rfl | hs'
        · exact ⟨_, List.mem_cons_self .., a1⟩
        · rcases a2 s hs' with h | h
          · obtain ⟨o, ho, h⟩ := b1 s h
            exact ⟨o, List.mem_cons_of_mem _ ho, h⟩
          · exact ⟨_, List.mem_cons_self .., h⟩
      · intro o ho x hx
        rcases List.mem_cons.1 ho with rfl | ho
        · rcases a4 x hx with h | ⟨s, hs', h⟩
          · exact ⟨c, List.mem_cons_self .., h⟩
          · exact ⟨s, List.mem_cons_of_mem _ hs', h⟩
        · obtain ⟨s, hs', h⟩ := b2 o ho x hx
          exact ⟨s, List.mem_cons_of_mem _ (a3 s hs'), h⟩
      · intro o ho
        rcases List.mem_cons.1 ho with rfl | ho
        · exact a5
        · exact b3 o ho

theorem absorb_disjoint (cur : OSet NodeId) (l : List (OSet NodeId)) (h : ∀ s ∈ l, meets cur s = false) : absorb cur l = (cur, l) := by
  induction l with
  | nil => rfl
  | cons c rest ih =>
    have h1 := h c (List.mem_cons_self ..)
    unfold absorb
    rw [h1, ih (fun s hs => h s (List.mem_cons_of_mem _ hs))]
    rfl

end Search

/-- No node is in two of the sets. -/
def Apart (sets : List (OSet NodeId)) : Prop := sets.Pairwise (fun s s' => ∀ x, s.contains x = true → s'.contains x = false)

namespace Search

theorem absorb_keeps (cur : OSet NodeId) (l : List (OSet NodeId)) (h : (absorb cur l).2.length = l.length) :
    ∀ s ∈ l, meets cur s = false := by
  induction l generalizing cur with
  | nil => intro s hs; cases hs
  | cons c rest ih =>
    unfold absorb at h
    split at h
    · have := absorb_length (union cur c) rest
      simp only [List.length_cons] at h
      omega
    · rename_i hm
      intro s hs
      rcases List.mem_cons.1 hs with rfl | hs
      · simpa using hm
      · exact ih cur (by simpa using h) s hs

theorem merged_length (n : Nat) : ∀ l : List (OSet NodeId), l.length ≤ n → (mergedComponents l).length ≤ l.length := by
  induction n with
  | zero => intro l hl; cases l with
    | nil => simp [mergedComponents]
    | cons c l => simp at hl
  | succ n ih =>
    intro l hl
    cases l with
    | nil => simp [mergedComponents]
    | cons c rest =>
      unfold mergedComponents
      have h1 := absorb_length c rest
      have h2 := ih (absorb c rest).2 (by simp at hl; omega)
      simp only [List.length_cons]
      omega

theorem merged_apart (sets : List (OSet NodeId)) (h : Apart sets) : mergedComponents sets = sets := by
  induction sets with
  | nil => simp [mergedComponents]
  | cons c rest ih =>
    rw [Apart, List.pairwise_cons] at h
    have hd : ∀ s ∈ rest, meets c s = false := by
      intro s hs
      cases e : meets c s with
      | false => rfl
      | true =>
        obtain ⟨x, hx, hy⟩ := (meets_iff _ _).1 e
        rw [h.1 s hs x hx] at hy; cases hy
    unfold mergedComponents
    rw [absorb_disjoint _ _ hd, ih h.2]

theorem apart_of_length (sets : List (OSet NodeId)) (h : (mergedComponents sets).length = sets.length) : Apart sets := by
  induction sets with
  | nil => exact List.Pairwise.nil
  | cons c rest ih =>
    unfold mergedComponents at h
    have h1 := absorb_length c rest
    have h2 := merged_length _ (absorb c rest).2 (Nat.le_refl _)
    simp only [List.length_cons] at h
    have h3 := absorb_keeps c rest (by omega)
    rw [absorb_disjoint _ _ h3] at h
    refine List.pairwise_cons.2 ⟨fun s hs x hx => ?_, ih (by simpa using h)⟩
    cases e : s.contains x with
    | false => rfl
    | true =>
      have := h3 s hs
      rw [(meets_iff c s).2 ⟨x, hx, e⟩] at this; cases this

end Search

/-- The function called `k` times, each time on its last result. -/
def mergedAgain : Nat → List (OSet NodeId) → List (OSet NodeId)
  | 0, sets => sets
  | k + 1, sets => mergedAgain k (mergedComponents sets)

/-- What one call and any number of repeated calls keep. -/
structure Coarser (sets outs : List (OSet NodeId)) : Prop where
  covers : ∀ s ∈ sets, ∃ o ∈ outs, ∀ x, s.contains x = true → o.contains x = true
  from_inputs : ∀ o ∈ outs, ∀ x, o.contains x = true → ∃ s ∈ sets, s.contains x = true
  chained : ∀ o ∈ outs, ∀ x y, o.contains x = true → o.contains y = true → Chained sets x y

theorem Coarser.merged (sets : List (OSet NodeId)) : Coarser sets (mergedComponents sets) := by
  obtain ⟨h1, h2, h3⟩ := merged_spec sets sets.length sets (Nat.le_refl _) (fun _ h => h)
  exact ⟨h1, h2, h3⟩

theorem Chained.coarser {sets outs : List (OSet NodeId)} (h : Coarser sets outs) {x y : NodeId} (hc : Chained outs x y) : Chained sets x y := by
  obtain ⟨k, hk⟩ := hc
  induction hk with
  | nil a => exact ⟨0, .nil _⟩
  | snoc _ hs ih => obtain ⟨s, h1, h2, h3⟩ := hs; exact ih.trans (h.chained s h1 _ _ h2 h3)

theorem Coarser.trans {s t u : List (OSet NodeId)} (h : Coarser s t) (h' : Coarser t u) : Coarser s u := by
  refine ⟨fun a ha => ?_, fun o ho x hx => ?_, fun o ho x y hx hy => (h'.chained o ho x y hx hy).coarser h⟩
  · obtain ⟨b, hb, hab⟩ := h.covers a ha
    obtain ⟨c, hc, hbc⟩ := h'.covers b hb
    exact ⟨c, hc, fun x hx => hbc x (hab x hx)⟩
  · obtain ⟨b, hb, hbx⟩ := h'.from_inputs o ho x hx
    exact h.from_inputs b hb x hbx

theorem Coarser.again (k : Nat) (sets : List (OSet NodeId)) : Coarser sets (mergedAgain k sets) := by
  induction k generalizing sets with
  | zero => exact ⟨fun s hs => ⟨s, hs, fun _ h => h⟩, fun o ho x hx => ⟨o, ho, hx⟩, fun o ho x y hx hy => Together.chained ⟨o, ho, hx, hy⟩⟩
  | succ k ih => exact (Coarser.merged sets).trans (ih _)

theorem mergedAgain_apart (k : Nat) (sets : List (OSet NodeId)) (h : Apart sets) : mergedAgain k sets = sets := by
  induction k with
  | zero => rfl
  | succ k ih => rw [mergedAgain, merged_apart _ h, ih]

theorem apart_again (k : Nat) : ∀ sets : List (OSet NodeId), sets.length ≤ k → Apart (mergedAgain k sets) := by
  induction k with
  | zero => intro sets h; cases sets with
    | nil => exact List.Pairwise.nil
    | cons c l => simp at h
  | succ k ih =>
    intro sets h
    have h1 := merged_length _ sets (Nat.le_refl _)
    by_cases e : (mergedComponents sets).length = sets.length
    · have ha := apart_of_length sets e
      rw [mergedAgain_apart _ _ ha]; exact ha
    · exact ih _ (by omega)

theorem Apart.apart {l : List (OSet NodeId)} (h : Apart l) {a b : OSet NodeId} (ha : a ∈ l) (hb : b ∈ l) (hne : a ≠ b) {x : NodeId}
    (hx : a.contains x = true) : b.contains x = false := by
  induction l with
  | nil => cases ha
  | cons c l ih =>
    rw [Apart, List.pairwise_cons] at h
    rcases List.mem_cons.1 ha with rfl | ha'
    · rcases List.mem_cons.1 hb with rfl | hb
      · exact absurd rfl hne
      · exact h.1 b hb x hx
    · rcases List.mem_cons.1 hb with rfl | hb'
      · cases e : b.contains x with
        | false => rfl
        | true => rw [h.1 a ha' x e] at hx; cases hx
      · exact ih h.2 ha' hb'

/-- **C38.** One call of `getMergedComponents` loses and invents nothing: every input set is inside an output set, every node of an output
set is in an input set, and a node only shares an output with nodes it is chained to by overlapping inputs. There are never more outputs
than inputs; there are as many exactly when no two inputs share a node, and then the result is the input. (One call need not give disjoint
sets: `C38_outputs_can_overlap`.) Called again on its result as often as there were inputs, or more, it gives the components: disjoint sets in
which two nodes share a set exactly when they are chained. -/
theorem C38_merged_components (sets : List (OSet NodeId)) :
    (∀ s ∈ sets, ∃ o ∈ mergedComponents sets, ∀ x, s.contains x = true → o.contains x = true) ∧
    (∀ o ∈ mergedComponents sets, ∀ x, o.contains x = true → ∃ s ∈ sets, s.contains x = true) ∧
    (∀ o ∈ mergedComponents sets, ∀ x y, o.contains x = true → o.contains y = true → Chained sets x y) ∧
    (mergedComponents sets).length ≤ sets.length ∧
    ((mergedComponents sets).length = sets.length ↔ Apart sets) ∧ (Apart sets → mergedComponents sets = sets) ∧
    ∀ k, sets.length ≤ k → Apart (mergedAgain k sets) ∧ ∀ x y,
      ((∃ o ∈ mergedAgain k sets, o.contains x = true ∧ o.contains y = true) ↔ (∃ s ∈ sets, s.contains x = true) ∧ Chained sets x y) := by
  have h := Coarser.merged sets
  refine ⟨h.covers, h.from_inputs, h.chained, merged_length _ _ (Nat.le_refl _), ⟨apart_of_length sets, fun ha => by rw [merged_apart _ ha]⟩,
    merged_apart sets, fun k hk => ⟨apart_again k sets hk, fun x y => ⟨?_, ?_⟩⟩⟩
  · rintro ⟨o, ho, hx, hy⟩
    exact ⟨(Coarser.again k sets).from_inputs o ho x hx, (Coarser.again k sets).chained o ho x y hx hy⟩
  · rintro ⟨⟨s, hs, hx⟩, n, hw⟩
    have ha := apart_again k sets hk
    obtain ⟨o, ho, hso⟩ := (Coarser.again k sets).covers s hs
    refine ⟨o, ho, hso x hx, ?_⟩
    clear hs
    induction hw with
    | nil a => exact hso _ hx
    | snoc _ ht ih =>
      have hy := ih hx
      obtain ⟨t, ht, h1, h2⟩ := ht
      obtain ⟨o', ho', hto⟩ := (Coarser.again k sets).covers t ht
      have : o = o' := by
        apply Classical.byContradiction
        intro hne
        exact absurd (hto _ h1) (by rw [ha.apart ho ho' hne hy]; simp)
      exact this ▸ hto _ h2

/-- a set of nodes -/
def Sample.nodeSet (l : List NodeId) : OSet NodeId := l.foldl (fun s n => s.add n) ∅

/-- The claim that the outputs are disjoint is false: {1}, {2, 3}, {1, 2} merge to {1, 2} and {2, 3}. -/
theorem C38_outputs_can_overlap : ∃ sets : List (OSet NodeId), ¬ Apart (mergedComponents sets) := by
  refine ⟨[Sample.nodeSet [1], Sample.nodeSet [2, 3], Sample.nodeSet [1, 2]], fun h => ?_⟩
  have e : mergedComponents [Sample.nodeSet [1], Sample.nodeSet [2, 3], Sample.nodeSet [1, 2]] = [Sample.nodeSet [1, 2], Sample.nodeSet [2, 3]] := by
    decide +kernel
  rw [e] at h
  have := (List.pairwise_cons.1 h).1 (Sample.nodeSet [2, 3]) (by simp) 2 (by decide +kernel)
  revert this
  decide +kernel

example : mergedComponents [Sample.nodeSet [1, 2], Sample.nodeSet [5], Sample.nodeSet [2, 3], Sample.nodeSet [3, 4]] =
    [Sample.nodeSet [1, 2, 3, 4], Sample.nodeSet [5]] := by decide +kernel

/-- The overlapping outputs of `C38_outputs_can_overlap` are joined by a second call. -/
example : mergedAgain 3 [Sample.nodeSet [1], Sample.nodeSet [2, 3], Sample.nodeSet [1, 2]] = [Sample.nodeSet [1, 2, 3]] := by decide +kernel

end Verif
