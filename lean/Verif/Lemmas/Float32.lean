import Verif.Model.Box
/-! # Rounding: monotone, exact on representable values, small error -/

namespace Verif
namespace F32

/-! ## Values of bit patterns -/

theorem magVal_small {b : Nat} (h : b < 2 ^ 24) : magVal b = b := by
  unfold magVal
  split
  · rfl
  · have : b / 2 ^ 23 = 1 := by omega
    rw [this]
    simp only [Nat.sub_self, Nat.pow_zero, Nat.mul_one]
    omega

theorem magVal_parts {e m : Nat} (hm : m < 2 ^ 23) : magVal ((e + 1) * 2 ^ 23 + m) = (2 ^ 23 + m) * 2 ^ e := by
  unfold magVal
  have h1 : ((e + 1) * 2 ^ 23 + m) / 2 ^ 23 = e + 1 := by omega
  have h2 : ((e + 1) * 2 ^ 23 + m) % 2 ^ 23 = m := by omega
  rw [h1, h2, if_neg (by omega), Nat.add_sub_cancel]

/-- `k` binary digits below `2^24`, shifted: also with a carry. -/
theorem magVal_shift {s k : Nat} (h1 : 2 ^ 23 ≤ k) (h2 : k ≤ 2 ^ 24) : magVal (s * 2 ^ 23 + k) = k * 2 ^ s := by
  by_cases h : k = 2 ^ 24
  · subst h
    rw [show s * 2 ^ 23 + 2 ^ 24 = (s + 1 + 1) * 2 ^ 23 + 0 by omega, magVal_parts (by omega)]
    have h1 : (2 : Nat) ^ (s + 1) = 2 ^ s * 2 := Nat.pow_succ ..
    rw [h1]
    generalize 2 ^ s = x
    omega
  · have e : s * 2 ^ 23 + k = (s + 1) * 2 ^ 23 + (k - 2 ^ 23) := by omega
    have e' : 2 ^ 23 + (k - 2 ^ 23) = k := by omega
    rw [e, magVal_parts (by omega), e']

theorem magVal_succ (b : Nat) : magVal b < magVal (b + 1) := by
  by_cases h : b + 1 < 2 ^ 24
  · rw [magVal_small h, magVal_small (by omega)]; omega
  · have hb : b = (b / 2 ^ 23) * 2 ^ 23 + b % 2 ^ 23 := by omega
    have he : 1 ≤ b / 2 ^ 23 := by omega
    have hm : b % 2 ^ 23 < 2 ^ 23 := Nat.mod_lt _ (by decide)
    generalize b / 2 ^ 23 = e at *
    generalize b % 2 ^ 23 = m at *
    obtain ⟨e, rfl⟩ : ∃ e', e = e' + 1 := ⟨e - 1, by omega⟩
    subst hb
    rw [magVal_parts hm]
    rw [show (e + 1) * 2 ^ 23 + m + 1 = e * 2 ^ 23 + (2 ^ 23 + m + 1) by omega, magVal_shift (by omega) (by omega)]
    exact Nat.mul_lt_mul_of_pos_right (by omega) (Nat.two_pow_pos _)

theorem magVal_lt {a b : Nat} (h : a < b) : magVal a < magVal b := by
  induction b with
  | zero => omega
  | succ b ih =>
    by_cases hab : a = b
    · subst hab; exact magVal_succ a
    · exact Nat.lt_trans (ih (by omega)) (magVal_succ b)
theorem magVal_le {a b : Nat} (h : a ≤ b) : magVal a ≤ magVal b := by
  rcases Nat.lt_or_eq_of_le h with h | h
  · exact Nat.le_of_lt (magVal_lt h)
  · rw [h]; exact Nat.le_refl _
theorem magVal_le_iff {a b : Nat} : magVal a ≤ magVal b ↔ a ≤ b :=
  ⟨fun h => Nat.le_of_not_lt fun h' => absurd (magVal_lt h') (Nat.not_lt.2 h), magVal_le⟩
theorem magVal_lt_iff {a b : Nat} : magVal a < magVal b ↔ a < b :=
  ⟨fun h => Nat.lt_of_not_le fun h' => absurd (magVal_le h') (Nat.not_le.2 h), magVal_lt⟩
theorem magVal_zero : magVal 0 = 0 := rfl
/-- The value that infinity stands for: `2^128`. -/
def top : Nat := 2 ^ 277
theorem magVal_inf : magVal (255 * 2 ^ 23) = top := by decide +kernel

/-! ## Rounding integers and fractions -/

theorem nearest_exact (k q : Nat) (hq : 0 < q) : nearest (k * q) q = k := by
  unfold nearest
  rw [Nat.mul_mod_left, Nat.mul_div_cancel _ hq, if_neg (by omega)]

/-- Twice the distance to the nearest integer is at most `q`. -/
theorem nearest_err {p q : Nat} (hq : 0 < q) : 2 * (nearest p q * q) ≤ 2 * p + q ∧ 2 * p ≤ 2 * (nearest p q * q) + q := by
  unfold nearest
  have h1 := Nat.div_add_mod p q
  have h2 := Nat.mod_lt p hq
  rw [Nat.mul_comm q] at h1
  generalize p / q = k at *
  generalize p % q = r at *
  split
  · rw [Nat.add_mul]; omega
  · omega

theorem nearest_mono {p p' q q' : Nat} (hq : 0 < q) (hq' : 0 < q') (h : p * q' ≤ p' * q) : nearest p q ≤ nearest p' q' := by
  -- compare the integer parts, then twice the remainders
  have d : p / q ≤ p' / q' := by
    rw [Nat.le_div_iff_mul_le hq']
    have : p / q * q ≤ p := Nat.div_mul_le_self p q
    have h2 : p / q * q * q' ≤ p' * q := Nat.le_trans (Nat.mul_le_mul_right _ this) h
    rw [Nat.mul_right_comm] at h2
    exact Nat.le_of_mul_le_mul_right h2 hq
  unfold nearest
  have e := Nat.div_add_mod p q
  have e' := Nat.div_add_mod p' q'
  by_cases hk : p / q = p' / q'
  · have hr : p % q * q' ≤ p' % q' * q := by
      have e1 : p * q' = (q * (p / q)) * q' + p % q * q' := by rw [← Nat.add_mul, e]
      have e2 : p' * q = (q' * (p' / q')) * q + p' % q' * q := by rw [← Nat.add_mul, e']
      rw [e1, e2, ← hk] at h
      have : q * (p / q) * q' = q' * (p / q) * q := by
        rw [Nat.mul_right_comm, Nat.mul_comm q q', Nat.mul_right_comm]
      omega
    rw [← hk]
    by_cases h1 : 2 * (p % q) > q ∨ (2 * (p % q) = q ∧ p / q % 2 = 1)
    · rw [if_pos h1, if_pos]
      · exact Nat.le_refl _
      rcases h1 with h1 | ⟨h1, h3⟩
      · left
        have : q * q' < 2 * (p % q) * q' := Nat.mul_lt_mul_of_pos_right h1 hq'
        have h4 : q' * q < 2 * (p' % q') * q := by
          rw [Nat.mul_comm q' q]
          refine Nat.lt_of_lt_of_le this ?_
          rw [Nat.mul_assoc, Nat.mul_assoc]
          exact Nat.mul_le_mul_left _ hr
        exact Nat.lt_of_mul_lt_mul_right h4
      · have h4 : q' * q ≤ 2 * (p' % q') * q := by
          rw [Nat.mul_comm q' q]
          have : q * q' = 2 * (p % q) * q' := by rw [h1]
          rw [this, Nat.mul_assoc, Nat.mul_assoc]
          exact Nat.mul_le_mul_left _ hr
        have h5 := Nat.le_of_mul_le_mul_right h4 hq
        rcases Nat.lt_or_eq_of_le h5 with h6 | h6
        · exact .inl h6
        · exact .inr ⟨h6.symm, h3⟩
    · rw [if_neg h1]
      split <;> omega
  · have : p / q < p' / q' := Nat.lt_of_le_of_ne d hk
    split <;> split <;> omega

theorem shiftOf_le {p q : Nat} (h : 24 ≤ (p / q).log2) : 2 ^ 23 * 2 ^ shiftOf p q ≤ p / q ∧ p / q < 2 ^ 24 * 2 ^ shiftOf p q := by
  unfold shiftOf
  have hne : p / q ≠ 0 := by intro h0; rw [h0] at h; simp at h
  constructor
  · rw [← Nat.pow_add, show 23 + ((p / q).log2 - 23) = (p / q).log2 by omega]
    exact Nat.log2_self_le hne
  · rw [← Nat.pow_add, show 24 + ((p / q).log2 - 23) = (p / q).log2 + 1 by omega]
    exact Nat.lt_log2_self

/-- Before the cut at infinity. -/
def rawMag (p q : Nat) : Nat := shiftOf p q * 2 ^ 23 + nearest p (q * 2 ^ shiftOf p q)

theorem roundMag_eq (p q : Nat) : roundMag p q = min (rawMag p q) (255 * 2 ^ 23) := rfl

theorem shiftOf_zero {p q : Nat} (h : (p / q).log2 < 24) : shiftOf p q = 0 := by unfold shiftOf; omega

theorem div_lt_of_log2 {n : Nat} (h : n.log2 < 24) : n < 2 ^ 24 := by
  have := @Nat.lt_log2_self n
  exact Nat.lt_of_lt_of_le this (Nat.pow_le_pow_right (by decide) (by omega))

/-- Range of the rounded significand. -/
theorem nearest_range {p q : Nat} (hq : 0 < q) : nearest p (q * 2 ^ shiftOf p q) ≤ 2 ^ 24 ∧
    (0 < shiftOf p q → 2 ^ 23 ≤ nearest p (q * 2 ^ shiftOf p q)) := by
  have hQ : 0 < q * 2 ^ shiftOf p q := Nat.mul_pos hq (Nat.two_pow_pos _)
  have up : p / q < 2 ^ 24 * 2 ^ shiftOf p q := by
    by_cases h : (p / q).log2 < 24
    · rw [shiftOf_zero h, Nat.pow_zero, Nat.mul_one]; exact div_lt_of_log2 h
    · exact (shiftOf_le (by omega)).2
  constructor
  · have h1 : p < 2 ^ 24 * (q * 2 ^ shiftOf p q) := by
      have := (Nat.div_lt_iff_lt_mul hq).1 up
      rwa [Nat.mul_assoc, Nat.mul_comm (2 ^ shiftOf p q)] at this
    have : nearest p (q * 2 ^ shiftOf p q) ≤ nearest (2 ^ 24 * (q * 2 ^ shiftOf p q)) (q * 2 ^ shiftOf p q) := by
      apply nearest_mono hQ hQ
      exact Nat.mul_le_mul_right _ (Nat.le_of_lt h1)
    rwa [nearest_exact _ _ hQ] at this
  · intro hs
    have hl : 24 ≤ (p / q).log2 := by unfold shiftOf at hs; omega
    have h1 : 2 ^ 23 * (q * 2 ^ shiftOf p q) ≤ p := by
      have := (Nat.le_div_iff_mul_le hq).1 (shiftOf_le hl).1
      rwa [Nat.mul_assoc, Nat.mul_comm (2 ^ shiftOf p q)] at this
    have : nearest (2 ^ 23 * (q * 2 ^ shiftOf p q)) (q * 2 ^ shiftOf p q) ≤ nearest p (q * 2 ^ shiftOf p q) := by
      apply nearest_mono hQ hQ
      exact Nat.mul_le_mul_right _ h1
    rwa [nearest_exact _ _ hQ] at this

theorem log2_mono {a b : Nat} (h : a ≤ b) : a.log2 ≤ b.log2 := by
  by_cases ha : a = 0
  · subst ha; simp
  · exact (Nat.le_log2 (by omega)).2 (Nat.le_trans (Nat.log2_self_le ha) h)

theorem div_mono {p p' q q' : Nat} (hq : 0 < q) (hq' : 0 < q') (h : p * q' ≤ p' * q) : p / q ≤ p' / q' := by
  rw [Nat.le_div_iff_mul_le hq']
  have : p / q * q ≤ p := Nat.div_mul_le_self p q
  have h2 : p / q * q * q' ≤ p' * q := Nat.le_trans (Nat.mul_le_mul_right _ this) h
  rw [Nat.mul_right_comm] at h2
  exact Nat.le_of_mul_le_mul_right h2 hq

theorem rawMag_mono {p p' q q' : Nat} (hq : 0 < q) (hq' : 0 < q') (h : p * q' ≤ p' * q) : rawMag p q ≤ rawMag p' q' := by
  have hs : shiftOf p q ≤ shiftOf p' q' := by
    unfold shiftOf
    have := log2_mono (div_mono hq hq' h)
    omega
  unfold rawMag
  rcases Nat.lt_or_eq_of_le hs with hs | hs
  · have h1 := (nearest_range (p := p) hq).1
    have h2 := (nearest_range (p := p') hq').2 (by omega)
    have : (shiftOf p q + 1) * 2 ^ 23 ≤ shiftOf p' q' * 2 ^ 23 := Nat.mul_le_mul_right _ hs
    omega
  · rw [hs]
    apply Nat.add_le_add_left
    apply nearest_mono (Nat.mul_pos hq (Nat.two_pow_pos _)) (Nat.mul_pos hq' (Nat.two_pow_pos _))
    rw [← Nat.mul_assoc, ← Nat.mul_assoc]
    exact Nat.mul_le_mul_right _ h

theorem roundMag_mono {p p' q q' : Nat} (hq : 0 < q) (hq' : 0 < q') (h : p * q' ≤ p' * q) : roundMag p q ≤ roundMag p' q' := by
  rw [roundMag_eq, roundMag_eq]
  have := rawMag_mono hq hq' h
  omega

theorem roundMag_le (p q : Nat) : roundMag p q ≤ 255 * 2 ^ 23 := by rw [roundMag_eq]; exact Nat.min_le_right _ _

/-- Rounding depends on the fraction only. -/
theorem roundMag_congr {p p' q q' : Nat} (hq : 0 < q) (hq' : 0 < q') (h : p * q' = p' * q) : roundMag p q = roundMag p' q' :=
  Nat.le_antisymm (roundMag_mono hq hq' (Nat.le_of_eq h)) (roundMag_mono hq' hq (Nat.le_of_eq h.symm))

theorem roundMag_magVal {b : Nat} (hb : b ≤ 255 * 2 ^ 23) : roundMag (magVal b) 1 = b := by
  rw [roundMag_eq]
  have : rawMag (magVal b) 1 = b := by
    unfold rawMag
    by_cases h : b < 2 ^ 24
    · rw [magVal_small h, shiftOf_zero, Nat.pow_zero, Nat.mul_one]
      · have := nearest_exact b 1 (by decide)
        rw [Nat.mul_one] at this
        rw [this]; omega
      · rw [Nat.div_one]
        by_cases h0 : b = 0
        · subst h0; decide
        · exact (Nat.log2_lt h0).2 h
    · obtain ⟨e, m, hm, rfl⟩ : ∃ e m, m < 2 ^ 23 ∧ b = (e + 1) * 2 ^ 23 + m :=
        ⟨b / 2 ^ 23 - 1, b % 2 ^ 23, Nat.mod_lt _ (by decide), by omega⟩
      rw [magVal_parts hm]
      have hl : ((2 ^ 23 + m) * 2 ^ e).log2 = 23 + e := by
        have hpos : 0 < 2 ^ e := Nat.two_pow_pos e
        have hne : (2 ^ 23 + m) * 2 ^ e ≠ 0 := Nat.mul_ne_zero (by omega) (by omega)
        rw [Nat.log2_eq_iff hne]
        rw [Nat.pow_add, show 23 + e + 1 = 24 + e by omega, Nat.pow_add]
        exact ⟨Nat.mul_le_mul_right _ (by omega), Nat.mul_lt_mul_of_pos_right (by omega) hpos⟩
      have hs : shiftOf ((2 ^ 23 + m) * 2 ^ e) 1 = e := by unfold shiftOf; rw [Nat.div_one, hl]; omega
      rw [hs, Nat.one_mul, nearest_exact _ _ (Nat.two_pow_pos e)]
      omega
  rw [this]; omega

/-- Relative error below the overflow threshold: at most `2^-24`, or half a unit. -/
theorem roundMag_err {p q : Nat} (hq : 0 < q) (h : roundMag p q < 255 * 2 ^ 23) :
    (2 ^ 24 * (magVal (roundMag p q) * q) ≤ (2 ^ 24 + 1) * p ∨ 2 * (magVal (roundMag p q) * q) ≤ 2 * p + q) ∧
    ((2 ^ 24 - 1) * p ≤ 2 ^ 24 * (magVal (roundMag p q) * q) ∨ 2 * p ≤ 2 * (magVal (roundMag p q) * q) + q) := by
  have hr : roundMag p q = rawMag p q := by rw [roundMag_eq] at *; omega
  rw [hr]
  have hv : magVal (rawMag p q) = nearest p (q * 2 ^ shiftOf p q) * 2 ^ shiftOf p q := by
    unfold rawMag
    by_cases hs : 0 < shiftOf p q
    · exact magVal_shift ((nearest_range hq).2 hs) (nearest_range hq).1
    · have h0 : shiftOf p q = 0 := by omega
      have h1 := (nearest_range (p := p) hq).1
      rw [h0] at *
      rw [Nat.zero_mul, Nat.zero_add, Nat.pow_zero, Nat.mul_one, Nat.mul_one] at *
      rcases Nat.lt_or_eq_of_le h1 with h2 | h2
      · exact magVal_small h2
      · rw [h2]; decide +kernel
  have he := nearest_err (p := p) (q := q * 2 ^ shiftOf p q) (Nat.mul_pos hq (Nat.two_pow_pos _))
  have hv' : magVal (rawMag p q) * q = nearest p (q * 2 ^ shiftOf p q) * (q * 2 ^ shiftOf p q) := by
    rw [hv, Nat.mul_assoc, Nat.mul_comm (2 ^ shiftOf p q)]
  rw [hv']
  by_cases hs : 0 < shiftOf p q
  · have hl : 24 ≤ (p / q).log2 := by unfold shiftOf at hs; omega
    have h1 : 2 ^ 23 * (q * 2 ^ shiftOf p q) ≤ p := by
      have := (Nat.le_div_iff_mul_le hq).1 (shiftOf_le hl).1
      rwa [Nat.mul_assoc, Nat.mul_comm (2 ^ shiftOf p q)] at this
    generalize nearest p (q * 2 ^ shiftOf p q) * (q * 2 ^ shiftOf p q) = v at *
    generalize q * 2 ^ shiftOf p q = Q at *
    exact ⟨.inl (by omega), .inl (by omega)⟩
  · have h0 : shiftOf p q = 0 := by omega
    rw [h0, Nat.pow_zero, Nat.mul_one] at he ⊢
    exact ⟨.inr he.1, .inr he.2⟩

end F32
end Verif
