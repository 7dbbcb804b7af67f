import Verif.Lemmas.Hull
/-! # The root, and what every hull looks like -/

namespace Verif
namespace Hull
open F32

/-! ## The root -/

theorem foldl_range_inv {P : Nat → Nat → Prop} {f : Nat → Nat → Nat} (n : Nat) (h0 : P 0 0) (hs : ∀ k r, k < n → P k r → P (k + 1) (f r k)) :
    P n ((List.range n).foldl f 0) := by
  induction n with
  | zero => exact h0
  | succ n ih =>
    rw [List.range_succ, List.foldl_append]
    exact hs n _ (Nat.lt_succ_self n) (ih (fun k r hk => hs k r (Nat.lt_succ_of_lt hk)))

theorem rootStep_or (ps : List V3f) (r i : Nat) : rootStep ps r i = r ∨ rootStep ps r i = i := by
  unfold rootStep
  split
  · exact Or.inl rfl
  · split
    · exact Or.inl rfl
    · exact Or.inr rfl

theorem findRoot_lt {ps : List V3f} (h : ps ≠ []) : findRoot ps < ps.length := by
  have hp : 0 < ps.length := List.length_pos_iff.2 h
  unfold findRoot
  refine foldl_range_inv (P := fun _ r => r < ps.length) ps.length hp ?_
  intro k r hk hr
  rcases rootStep_or ps r k with e | e <;> rw [e] <;> assumption

theorem eq_iff {x y : F32} (hx : F32.finite x = true) (hy : F32.finite y = true) : x.eq y = true ↔ x.val = y.val := by
  have mag : ∀ z : F32, (z &&& 0x7FFFFFFF == 0) = true ↔ z.magBits = 0 := by
    intro z
    have e : (z &&& 0x7FFFFFFF).toNat = z.magBits := by
      rw [UInt32.toNat_and]
      exact Nat.and_two_pow_sub_one_eq_mod z.toNat 31
    rw [beq_iff_eq, ← e]
    constructor
    · intro h; rw [h]; rfl
    · intro h; exact UInt32.toNat_inj.1 h
  unfold F32.eq
  rw [finite_notNan hx, finite_notNan hy]
  simp only [Bool.not_false, Bool.true_and, Bool.or_eq_true, Bool.and_eq_true, mag]
  rw [beq_iff_eq]
  constructor
  · rintro (h | ⟨h1, h2⟩)
    · rw [h]
    · rw [(val_of_mag h1).2.2.1, (val_of_mag h2).2.2.1]
  · intro h
    have hm : magVal x.magBits = magVal y.magBits := by rw [← natAbs_val, ← natAbs_val, h]
    have hm' : x.magBits = y.magBits := Nat.le_antisymm (magVal_le_iff.1 (Nat.le_of_eq hm)) (magVal_le_iff.1 (Nat.le_of_eq hm.symm))
    by_cases h0 : x.magBits = 0
    · exact Or.inr ⟨h0, by omega⟩
    · left
      have pos : 0 < magVal x.magBits := by have := magVal_lt (Nat.pos_of_ne_zero h0); omega
      have hs : x.neg? = y.neg? := by
        unfold val at h
        rw [← hm'] at h
        cases h1 : x.neg? <;> cases h2 : y.neg? <;> simp only [h1, h2, if_true, if_false, Bool.false_eq_true] at h <;> first | rfl | (exfalso; omega)
      rw [← pack_parts x, ← pack_parts y, hs, hm']

theorem findRoot_lowest {ps : List V3f} (h : ps ≠ []) (hf : ∀ p ∈ ps, p.FiniteAt) : Lowest ps (findRoot ps) := by
  have hp : 0 < ps.length := List.length_pos_iff.2 h
  have key := foldl_range_inv (P := fun k r => r < ps.length ∧ ∀ i < ps.length, (i < k ∨ i = 0) → (pt ps r).coord .y < (pt ps i).coord .y ∨ ((pt ps r).coord .y = (pt ps i).coord .y ∧ (pt ps r).coord .x ≤ (pt ps i).coord .x))
    (f := rootStep ps) ps.length ⟨hp, fun i _ hi => by rcases hi with hi | rfl; · omega
                                                       · exact Or.inr ⟨rfl, Int.le_refl _⟩⟩ ?_
  · refine ⟨key.1, fun p hp => ?_⟩
    obtain ⟨i, hi, rfl⟩ := List.getElem_of_mem hp
    have := key.2 i hi (Or.inl hi)
    have e : pt ps i = ps[i] := by unfold pt; rw [List.getD_eq_getElem?_getD, List.getElem?_eq_getElem hi]; rfl
    rwa [e] at this
  · intro k r hk ⟨hr, ih⟩
    have fr := hf _ (pt_mem hr)
    have fk := hf _ (pt_mem hk)
    have l1 : F32.lt (pt ps r).y (pt ps k).y = true ↔ (pt ps r).coord .y < (pt ps k).coord .y := lt_iff (finite_notNan (fr .y)) (finite_notNan (fk .y))
    have l2 : F32.lt (pt ps r).x (pt ps k).x = true ↔ (pt ps r).coord .x < (pt ps k).coord .x := lt_iff (finite_notNan (fr .x)) (finite_notNan (fk .x))
    have l3 : (pt ps k).y.eq (pt ps r).y = true ↔ (pt ps k).coord .y = (pt ps r).coord .y := eq_iff (fk .y) (fr .y)
    unfold rootStep
    split
    · rename_i hc
      have hc := l1.1 hc
      refine ⟨hr, fun i hi hk' => ?_⟩
      by_cases e : i = k
      · subst e; exact Or.inl hc
      · exact ih i hi (by omega)
    · rename_i hc
      have hc : ¬ _ := fun h => hc (l1.2 h)
      split
      · rename_i hd
        rw [Bool.and_eq_true, l3, l2] at hd
        refine ⟨hr, fun i hi hk' => ?_⟩
        by_cases e : i = k
        · subst e; exact Or.inr ⟨hd.1.symm, Int.le_of_lt hd.2⟩
        · exact ih i hi (by omega)
      · rename_i hd
        rw [Bool.and_eq_true, l3, l2] at hd
        refine ⟨hk, fun i hi hk' => ?_⟩
        by_cases e : i = k
        · subst e; exact Or.inr ⟨rfl, Int.le_refl _⟩
        · have := ih i hi (by omega)
          omega

/-! ## What every hull looks like -/

theorem push_ne_nil (ps : List V3f) : ∀ (s : List Nat) (c : Nat), push ps s c ≠ [] := by
  intro s c
  induction s with
  | nil => simp [push]
  | cons b s ih =>
    cases s with
    | nil => simp [push]
    | cons a rest =>
      unfold push
      split
      · simp
      · exact ih

/-- Three consecutive points, last first, turn left, as computed. -/
def Bent (ps : List V3f) : List Nat → Prop
  | c :: b :: a :: rest => (getJointDirection (pt ps b) (pt ps a) (pt ps c)).lt 0 = true ∧ Bent ps (b :: a :: rest)
  | _ => True

/-- The new point comes first, and a tail of the old list remains, the first point among it. -/
theorem push_shape (ps : List V3f) (c : Nat) : ∀ s : List Nat, s ≠ [] → ∃ pre t, s = pre ++ t ∧ t ≠ [] ∧ push ps s c = c :: t ∧ (Bent ps s → Bent ps (c :: t)) := by
  intro s
  induction s with
  | nil => intro h; exact absurd rfl h
  | cons b s ih =>
    intro _
    cases s with
    | nil => exact ⟨[], [b], rfl, by simp, rfl, fun _ => trivial⟩
    | cons a rest =>
      unfold push
      split
      · rename_i h
        exact ⟨[], b :: a :: rest, rfl, by simp, rfl, fun hb => ⟨h, hb⟩⟩
      · obtain ⟨pre, t, e1, e2, e3, e4⟩ := ih (by simp)
        refine ⟨b :: pre, t, by rw [e1]; rfl, e2, e3, fun hb => e4 ?_⟩
        cases rest with
        | nil => trivial
        | cons a' rest => exact hb.2

structure Shape (ps : List V3f) (root : Nat) (seen s : List Nat) : Prop where
  ne : s ≠ []
  nodup : s.Nodup
  sub : ∀ i ∈ s, i ∈ seen
  root : s.getLast? = some root
  bent : Bent ps s

theorem foldl_shape (ps : List V3f) (root : Nat) : ∀ (l seen s : List Nat), Shape ps root seen s → (l ++ seen).Nodup →
    Shape ps root (l ++ seen) (l.foldl (push ps) s) := by
  intro l
  induction l with
  | nil => intro seen s h _; exact h
  | cons c l ih =>
    intro seen s h hn
    obtain ⟨pre, t, e1, e2, e3, e4⟩ := push_shape ps c s h.ne
    have hc : c ∉ seen := by
      intro hc
      have := (List.nodup_cons.1 hn).1
      exact this (List.mem_append_right _ hc)
    have hn' : (l ++ c :: seen).Nodup := by
      have : (c :: l ++ seen).Perm (l ++ c :: seen) := List.perm_middle.symm
      exact this.nodup hn
    have s' : Shape ps root (c :: seen) (push ps s c) := by
      rw [e3]
      have hs : ∀ i ∈ t, i ∈ s := fun i hi => by rw [e1]; exact List.mem_append_right _ hi
      refine ⟨by simp, ?_, ?_, ?_, e4 h.bent⟩
      · rw [List.nodup_cons]
        refine ⟨fun hi => hc (h.sub _ (hs _ hi)), ?_⟩
        have := h.nodup
        rw [e1] at this
        exact (List.nodup_append.1 this).2.1
      · intro i hi
        rcases List.mem_cons.1 hi with rfl | hi
        · exact List.mem_cons_self
        · exact List.mem_cons_of_mem _ (h.sub _ (hs _ hi))
      · have := h.root
        rw [e1, List.getLast?_append] at this
        rw [List.getLast?_cons_of_ne_nil e2]
        cases hl : t.getLast? with
        | none => exact absurd (List.getLast?_eq_none_iff.1 hl) e2
        | some v => rw [hl] at this; exact this
    have := ih (c :: seen) (push ps s c) s' hn'
    rw [List.foldl_cons]
    refine ⟨this.ne, this.nodup, fun i hi => ?_, this.root, this.bent⟩
    have := this.sub i hi
    simp only [List.mem_append, List.mem_cons] at this ⊢
    rcases this with h | h | h
    · exact Or.inl (Or.inr h)
    · exact Or.inl (Or.inl h)
    · exact Or.inr h

theorem Sorts.strictWeak {sort : (Nat → Nat → Bool) → List Nat → List Nat} (hs : Sorts sort) {lt : Nat → Nat → Bool} {l : List Nat} (h : strictWeak lt l = true) :
    (sort lt l).Perm l ∧ (sort lt l).Pairwise fun a b => lt b a = false := by
  obtain ⟨h1, h2, h3⟩ := strictWeak_iff.1 h
  exact hs lt l h1 h2 h3

theorem others_nodup (ps : List V3f) (root : Nat) : (others ps root).Nodup := List.Pairwise.filter _ List.nodup_range

/-- The hull, last point first. -/
theorem hull_ok {sort : (Nat → Nat → Bool) → List Nat → List Nat} (hs : Sorts sort) {ps : List V3f} {h : List Nat} (e : hull sort ps = .ok h) :
    ∃ l : List Nat, h = (l.foldl (push ps) [findRoot ps]).reverse ∧ l.Perm (others ps (findRoot ps)) ∧ l.Pairwise fun a b => before ps (findRoot ps) b a = false := by
  unfold hull at e
  dsimp only at e
  split at e
  · exact absurd e (by simp)
  · rename_i hw
    have hw : strictWeak (before ps (findRoot ps)) (others ps (findRoot ps)) = true := by simpa using hw
    obtain ⟨h1, h2⟩ := Sorts.strictWeak hs hw
    exact ⟨_, (Res.ok.inj e).symm, h1, h2⟩

theorem hull_shape {sort : (Nat → Nat → Bool) → List Nat → List Nat} (hs : Sorts sort) {ps : List V3f} {h : List Nat} (e : hull sort ps = .ok h) :
    Shape ps (findRoot ps) (others ps (findRoot ps) ++ [findRoot ps]) h.reverse := by
  obtain ⟨l, rfl, h1, _⟩ := hull_ok hs e
  rw [List.reverse_reverse]
  have h0 : Shape ps (findRoot ps) [findRoot ps] [findRoot ps] := ⟨by simp, by simp, fun i hi => hi, rfl, trivial⟩
  have hn : (l ++ [findRoot ps]).Nodup := by
    have : (l ++ [findRoot ps]).Perm (others ps (findRoot ps) ++ [findRoot ps]) := h1.append_right _
    refine this.symm.nodup ?_
    rw [List.nodup_append]
    refine ⟨others_nodup _ _, by simp, ?_⟩
    intro a ha b hb
    rw [others_mem] at ha
    simp only [List.mem_singleton] at hb
    omega
  have := foldl_shape ps (findRoot ps) l [findRoot ps] [findRoot ps] h0 hn
  exact ⟨this.ne, this.nodup, fun i hi => (h1.append_right _).mem_iff.1 (this.sub i hi), this.root, this.bent⟩

end Hull
end Verif
