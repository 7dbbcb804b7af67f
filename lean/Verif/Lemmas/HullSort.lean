import Verif.Spec.Hull
/-! # A sort as the C++ standard requires it -/

namespace Verif
namespace Hull

/-- insertion, after the elements that are before it -/
def insertBy (lt : Nat → Nat → Bool) (a : Nat) : List Nat → List Nat
  | [] => [a]
  | b :: l => if lt b a then b :: insertBy lt a l else a :: b :: l
/-- insertion sort -/
def insertionSort (lt : Nat → Nat → Bool) (l : List Nat) : List Nat := l.foldr (insertBy lt) []

theorem insertBy_perm (lt : Nat → Nat → Bool) (a : Nat) (l : List Nat) : (insertBy lt a l).Perm (a :: l) := by
  induction l with
  | nil => exact .refl _
  | cons b l ih =>
    unfold insertBy
    split
    · exact (ih.cons b).trans (List.Perm.swap a b l)
    · exact .refl _

theorem insertionSort_perm (lt : Nat → Nat → Bool) (l : List Nat) : (insertionSort lt l).Perm l := by
  induction l with
  | nil => exact .refl _
  | cons a l ih => exact (insertBy_perm lt a _).trans (ih.cons a)

theorem insertionSort_sorts : Sorts insertionSort := by
  intro lt l irr tr eq
  have neg : ∀ a ∈ l, ∀ b ∈ l, ∀ c ∈ l, lt b a = false → lt c b = false → lt c a = false := by
    intro a ha b hb c hc h1 h2
    cases hca : lt c a with
    | false => rfl
    | true =>
      cases hab : lt a b with
      | true => rw [tr c hc a ha b hb hca hab] at h2; exact absurd h2 (by simp)
      | false =>
        cases hbc : lt b c with
        | true => rw [tr b hb c hc a ha hbc hca] at h1; exact absurd h1 (by simp)
        | false => rw [(eq a ha b hb c hc hab h1 hbc h2).2] at hca; exact absurd hca (by simp)
  refine ⟨insertionSort_perm lt l, ?_⟩
  have ins : ∀ (a : Nat) (s : List Nat), a ∈ l → (∀ b ∈ s, b ∈ l) → s.Pairwise (fun a b => lt b a = false) → (insertBy lt a s).Pairwise (fun a b => lt b a = false) := by
    intro a s ha
    induction s with
    | nil => intro _ _; simp [insertBy]
    | cons b s ih =>
      intro hs hp
      rw [List.pairwise_cons] at hp
      unfold insertBy
      by_cases h : lt b a = true
      · rw [if_pos h, List.pairwise_cons]
        refine ⟨?_, ih (fun x hx => hs x (by simp [hx])) hp.2⟩
        intro x hx
        rcases List.mem_cons.1 ((insertBy_perm lt a s).mem_iff.1 hx) with rfl | hx
        · cases hxb : lt x b with
          | false => rfl
          | true =>
            have hb := hs b (by simp)
            have := tr b hb x ha b hb h hxb
            rw [irr b hb] at this; exact absurd this (by simp)
        · exact hp.1 x hx
      · rw [if_neg h, List.pairwise_cons]
        have h' : lt b a = false := by simpa using h
        refine ⟨?_, List.pairwise_cons.2 hp⟩
        intro x hx
        rcases List.mem_cons.1 hx with rfl | hx
        · exact h'
        · exact neg a ha b (hs b (by simp)) x (hs x (by simp [hx])) h' (hp.1 x hx)
  have all : ∀ s : List Nat, (∀ b ∈ s, b ∈ l) → (insertionSort lt s).Pairwise (fun a b => lt b a = false) := by
    intro s
    induction s with
    | nil => intro _; exact List.Pairwise.nil
    | cons a s ih =>
      intro hs
      exact ins a _ (hs a (by simp)) (fun b hb => hs b (List.mem_cons_of_mem _ ((insertionSort_perm lt s).mem_iff.1 hb))) (ih fun b hb => hs b (by simp [hb]))
  exact all l fun b hb => hb

end Hull
end Verif
