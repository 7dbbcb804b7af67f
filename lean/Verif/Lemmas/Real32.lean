import Mathlib.Analysis.Real.Sqrt
import Verif.Lemmas.Color3
import Verif.Lemmas.Hull3
import Verif.Spec.HullReal
/-! # Errors of quotients and square roots, over the real numbers -/

namespace Verif
namespace F32

set_option exponentiation.threshold 600

theorem unit_real : ((unit : Nat) : ℝ) = 2 ^ 149 := by rw [show unit = 2 ^ 149 from rfl, Nat.cast_pow]; rfl
theorem re_eq (x : F32) : x.re = (x.val : ℝ) / (unit : ℝ) := by unfold re; rw [unit_real]
theorem re_cast (x : F32) : x.re = ((x.real : ℚ) : ℝ) := by rw [re_eq, real_eq]; push_cast; rfl
theorem unitR_pos : (0 : ℝ) < (unit : ℝ) := Nat.cast_pos.2 unit_pos
theorem unitR_ne : (unit : ℝ) ≠ 0 := ne_of_gt unitR_pos
theorem val_re (x : F32) : (x.val : ℝ) = x.re * unit := by rw [re_eq, div_mul_cancel₀ _ unitR_ne]
theorem one_re : one.re = 1 := by rw [re_cast]; rw [one_real]; simp
theorem re_lt {x y : F32} : x.val < y.val ↔ x.re < y.re := by
  rw [re_eq, re_eq, div_lt_div_iff_of_pos_right unitR_pos]; exact_mod_cast Iff.rfl
theorem re_le {x y : F32} : x.val ≤ y.val ↔ x.re ≤ y.re := by
  rw [re_eq, re_eq, div_le_div_iff_of_pos_right unitR_pos]; exact_mod_cast Iff.rfl
theorem re_pos {x : F32} : 0 < x.val ↔ 0 < x.re := by
  rw [re_eq, div_pos_iff_of_pos_right unitR_pos]; exact_mod_cast Iff.rfl
theorem neg_re (x : F32) : x.neg.re = - x.re := by rw [re_eq, re_eq, neg_val]; push_cast; ring

theorem castQ {q : ℚ} {k : Nat} : |q| ≤ 2 ^ k ↔ |(q : ℝ)| ≤ 2 ^ k := by
  rw [← Rat.cast_abs]
  constructor
  · intro h; exact_mod_cast h
  · intro h; exact_mod_cast h

theorem re_add (k : Nat) (hk : k ≤ 100) {x y : F32} (hx : F32.finite x = true) (hy : F32.finite y = true) (h : |x.re + y.re| ≤ 2 ^ k) :
    F32.finite (x.add y) = true ∧ |(x.add y).re - (x.re + y.re)| ≤ 1 / 2 ^ 24 * |x.re + y.re| := by
  obtain ⟨h1, h2⟩ := real_add' k hk hx hy (castQ.2 (by simp only [re_cast] at h; push_cast; exact h))
  refine ⟨h1, ?_⟩
  have h3 := (Rat.cast_le (K := ℝ)).2 h2
  push_cast at h3
  simp only [re_cast]
  exact h3
theorem re_sub (k : Nat) (hk : k ≤ 100) {x y : F32} (hx : F32.finite x = true) (hy : F32.finite y = true) (h : |x.re - y.re| ≤ 2 ^ k) :
    F32.finite (x.sub y) = true ∧ |(x.sub y).re - (x.re - y.re)| ≤ 1 / 2 ^ 24 * |x.re - y.re| := by
  obtain ⟨h1, h2⟩ := real_sub' k hk hx hy (castQ.2 (by simp only [re_cast] at h; push_cast; exact h))
  refine ⟨h1, ?_⟩
  have h3 := (Rat.cast_le (K := ℝ)).2 h2
  push_cast at h3
  simp only [re_cast]
  exact h3

/-- the error of rounding, additively -/
theorem roundMag_close {p q : Nat} (hq : 0 < q) (h : roundMag p q < 255 * 2 ^ 23) :
    |(magVal (roundMag p q) : ℝ) * q - p| ≤ 1 / 2 ^ 24 * p + q / 2 := by
  obtain ⟨h1, h2⟩ := roundMag_err hq h
  generalize magVal (roundMag p q) = m at *
  have hp : (0 : ℝ) ≤ p := Nat.cast_nonneg _
  have hq' : (0 : ℝ) ≤ q := Nat.cast_nonneg _
  rw [abs_le]
  constructor
  · rcases h2 with h2 | h2
    · have : (((2 ^ 24 - 1) * p : Nat) : ℝ) ≤ ((2 ^ 24 * (m * q) : Nat) : ℝ) := Nat.cast_le.2 h2
      push_cast at this
      norm_num at this ⊢
      linarith
    · have : ((2 * p : Nat) : ℝ) ≤ ((2 * (m * q) + q : Nat) : ℝ) := Nat.cast_le.2 h2
      push_cast at this
      norm_num at this ⊢
      linarith
  · rcases h1 with h1 | h1
    · have : ((2 ^ 24 * (m * q) : Nat) : ℝ) ≤ (((2 ^ 24 + 1) * p : Nat) : ℝ) := Nat.cast_le.2 h1
      push_cast at this
      norm_num at this ⊢
      linarith
    · have : ((2 * (m * q) : Nat) : ℝ) ≤ ((2 * p + q : Nat) : ℝ) := Nat.cast_le.2 h1
      push_cast at this
      norm_num at this ⊢
      linarith

theorem roundMag_fin {p q : Nat} (hq : 0 < q) (h : p ≤ 2 ^ 276 * q) : roundMag p q < 255 * 2 ^ 23 := by
  have := roundMag_mono (p := p) (q := q) (p' := 2 ^ 276) (q' := 1) hq (by decide) (by rw [Nat.mul_one]; exact h)
  have e := roundMag_pow (n := 276) (by decide)
  have : roundMag (2 ^ 276) 1 < 255 * 2 ^ 23 := by
    rw [← magVal_lt_iff, e, magVal_inf]; decide
  omega

theorem unit_pow : unit = 2 ^ 149 := rfl

theorem natAbs_re {x : F32} : (x.val.natAbs : ℝ) = |x.re| * unit := by
  rw [Nat.cast_natAbs]; push_cast; rw [val_re, abs_mul, abs_of_pos unitR_pos]

theorem re_mul {x y : F32} (hx : F32.finite x = true) (hy : F32.finite y = true) (h : |x.re * y.re| ≤ 2 ^ 100) :
    F32.finite (x.mul y) = true ∧ |(x.mul y).re - x.re * y.re| ≤ 1 / 2 ^ 24 * |x.re * y.re| + 1 / unit := by
  have hu := unitR_pos
  have hb : x.val.natAbs * y.val.natAbs ≤ 2 ^ 100 * unit * unit := by
    have : ((x.val.natAbs * y.val.natAbs : Nat) : ℝ) ≤ ((2 ^ 100 * unit * unit : Nat) : ℝ) := by
      rw [Nat.cast_mul, natAbs_re, natAbs_re, mul_mul_mul_comm, ← abs_mul]
      simp only [Nat.cast_mul, Nat.cast_pow, Nat.cast_ofNat, mul_assoc ((2 : ℝ) ^ 100)]
      exact mul_le_mul_of_nonneg_right h (le_of_lt (mul_pos hu hu))
    exact_mod_cast this
  obtain ⟨h1, h2⟩ := mul_close' 100 (by decide) hx hy hb
  refine ⟨h1, ?_⟩
  have h3 : ((2 ^ 24 * ((x.mul y).val * unit - x.val * y.val).natAbs : Nat) : ℝ) ≤ (((x.val * y.val).natAbs + 2 ^ 23 * unit : Nat) : ℝ) := by exact_mod_cast h2
  push_cast [Nat.cast_natAbs] at h3
  rw [val_re, val_re, val_re] at h3
  have e1 : (x.mul y).re * unit * unit - x.re * unit * (y.re * unit) = ((x.mul y).re - x.re * y.re) * (unit * unit) := by ring
  have e2 : x.re * unit * (y.re * unit) = x.re * y.re * (unit * unit) := by ring
  rw [e1, e2, abs_mul, abs_mul _ ((unit : ℝ) * unit), abs_of_pos (mul_pos hu hu)] at h3
  have h4 : (2 : ℝ) ^ 24 * |(x.mul y).re - x.re * y.re| ≤ |x.re * y.re| + 2 ^ 23 * (1 / unit) := by
    have hp := mul_pos hu hu
    rw [← mul_le_mul_iff_left₀ hp]
    have e3 : (2 : ℝ) ^ 23 * (1 / unit) * (unit * unit) = 2 ^ 23 * unit := by field_simp
    rw [add_mul, e3]; linarith
  have h5 : (0 : ℝ) ≤ 1 / unit := le_of_lt (one_div_pos.2 hu)
  generalize (1 : ℝ) / unit = η at *
  norm_num at h4 ⊢
  linarith

theorem val_signed (x : F32) : x.val = if x.neg? then -(x.val.natAbs : Int) else (x.val.natAbs : Int) := by
  rw [natAbs_val]; rfl

theorem div_signed {x y : F32} (hx : F32.finite x = true) (hy : F32.finite y = true) (py : y.val ≠ 0) :
    (x.div y).isNan = false ∧ (x.div y).val.natAbs = magVal (roundMag (x.val.natAbs * unit) y.val.natAbs) ∧
      (x.div y).val * y.val = if x.neg? then -((magVal (roundMag (x.val.natAbs * unit) y.val.natAbs) * y.val.natAbs : Nat) : Int) else
        ((magVal (roundMag (x.val.natAbs * unit) y.val.natAbs) * y.val.natAbs : Nat) : Int) := by
  have hm : y.magBits ≠ 0 := fun h => py (val_of_mag h).2.2.1
  have e : x.div y = pack (x.neg? != y.neg?) (roundMag (x.val.natAbs * unit) y.val.natAbs) := by
    rw [unit_pow]
    unfold div
    simp only [finite_notNan hx, finite_notNan hy, finite_notInf hx, finite_notInf hy, Bool.or_self, Bool.false_eq_true, if_false, if_neg hm, natAbs_val]
  rw [e]
  have h1 := roundMag_le (x.val.natAbs * unit) y.val.natAbs
  generalize roundMag (x.val.natAbs * unit) y.val.natAbs = b at h1
  refine ⟨pack_notNan h1, ?_, ?_⟩
  · rw [val_pack (by omega)]
    split <;> omega
  · have ey := val_signed y
    rw [val_pack (by omega), Int.natCast_mul]
    generalize magVal b = m
    generalize y.val.natAbs = k at *
    rw [ey]
    cases x.neg? <;> cases y.neg? <;> simp

theorem re_div {x y : F32} (hx : F32.finite x = true) (hy : F32.finite y = true) (py : y.re ≠ 0) (h : |x.re / y.re| ≤ 2 ^ 100) :
    F32.finite (x.div y) = true ∧ |(x.div y).re - x.re / y.re| ≤ 1 / 2 ^ 24 * |x.re / y.re| + 1 / unit := by
  have hu := unitR_pos
  have ny : y.val ≠ 0 := by intro h0; apply py; rw [re_eq, h0]; simp
  have na : 0 < y.val.natAbs := by omega
  obtain ⟨n, e1, e2⟩ := div_signed hx hy ny
  have ay : 0 < |y.re| := abs_pos.2 py
  have hb : x.val.natAbs * unit ≤ 2 ^ 100 * unit * y.val.natAbs := by
    have : ((x.val.natAbs * unit : Nat) : ℝ) ≤ ((2 ^ 100 * unit * y.val.natAbs : Nat) : ℝ) := by
      push_cast
      rw [natAbs_re, natAbs_re]
      rw [abs_div, div_le_iff₀ ay] at h
      have := mul_le_mul_of_nonneg_right h (le_of_lt (mul_pos hu hu))
      linarith
    exact_mod_cast this
  have hf : roundMag (x.val.natAbs * unit) y.val.natAbs < 255 * 2 ^ 23 := by
    apply roundMag_fin na
    refine Nat.le_trans hb (Nat.mul_le_mul_right _ ?_)
    rw [unit_pow, ← Nat.pow_add]
    exact Nat.pow_le_pow_right (by decide) (by decide)
  have hc := roundMag_close na hf
  refine ⟨by rw [finite_mag, ← magVal_lt_iff, ← natAbs_val, e1, magVal_lt_iff]; exact hf, ?_⟩
  have e3 := val_signed x
  generalize magVal (roundMag (x.val.natAbs * unit) y.val.natAbs) = m at *
  have h1 : |((x.div y).val : ℝ) * y.val - x.val * unit| ≤ 1 / 2 ^ 24 * (|x.re| * unit * unit) + |y.re| * unit / 2 := by
    have e2' : ((x.div y).val : ℝ) * y.val = if x.neg? then -((m : ℝ) * y.val.natAbs) else (m : ℝ) * y.val.natAbs := by
      have := congrArg (Int.cast (R := ℝ)) e2
      simp only [Int.cast_mul] at this
      rw [this]
      split <;> simp only [Int.cast_neg, Int.cast_natCast, Nat.cast_mul, Int.cast_mul]
    have e3' : (x.val : ℝ) = if x.neg? then -(x.val.natAbs : ℝ) else x.val.natAbs := by
      have := congrArg (Int.cast (R := ℝ)) e3
      refine this.trans ?_
      split <;> simp only [Int.cast_neg, Int.cast_natCast]
    rw [← natAbs_re, ← natAbs_re]
    rw [Nat.cast_mul] at hc
    rw [e2']
    generalize (x.val : ℝ) = X at *
    subst e3'
    split
    · rw [show -((m : ℝ) * y.val.natAbs) - -(x.val.natAbs : ℝ) * unit = -((m : ℝ) * y.val.natAbs - (x.val.natAbs : ℝ) * unit) by ring, abs_neg]
      exact hc
    · exact hc
  rw [val_re, val_re, val_re] at h1
  have e4 : (x.div y).re * unit * (y.re * unit) - x.re * unit * unit = ((x.div y).re - x.re / y.re) * (y.re * (unit * unit)) := by
    field_simp
  rw [e4, abs_mul, abs_mul, abs_of_pos (mul_pos hu hu)] at h1
  have hp : 0 < |y.re| * (unit * unit : ℝ) := mul_pos ay (mul_pos hu hu)
  rw [← mul_le_mul_iff_left₀ hp]
  have e5 : (1 / 2 ^ 24 * |x.re / y.re| + 1 / (unit : ℝ)) * (|y.re| * (unit * unit)) = 1 / 2 ^ 24 * (|x.re| * unit * unit) + |y.re| * unit := by
    rw [abs_div]; field_simp
  rw [e5]
  have := mul_pos ay hu
  linarith

/-- The square root: relative error. -/
theorem re_sqrt {z : F32} (hz : F32.finite z = true) (pz : 0 < z.re) :
    F32.finite z.sqrt = true ∧ |z.sqrt.re - Real.sqrt z.re| ≤ (1 / 2 ^ 24 + 1 / 2 ^ 60) * Real.sqrt z.re := by
  have hu := unitR_pos
  have pv := re_pos.2 pz
  rw [sqrt_pos hz pv]
  have en : ((z.val.natAbs : ℝ)) = z.re * unit := by rw [natAbs_re, abs_of_pos pz]
  obtain ⟨s1, s2⟩ := isqrt_spec (z.val.natAbs * unit)
  -- √n in units
  have er : Real.sqrt ((z.val.natAbs * unit : Nat) : ℝ) = Real.sqrt z.re * unit := by
    push_cast
    rw [en, mul_assoc, Real.sqrt_mul (le_of_lt pz), Real.sqrt_mul_self (le_of_lt hu)]
  generalize hn : z.val.natAbs * unit = n at *
  have r1 : (isqrt n : ℝ) ≤ Real.sqrt n := by
    apply Real.le_sqrt_of_sq_le
    rw [sq]; exact_mod_cast s1
  have r2 : Real.sqrt n < (isqrt n : ℝ) + 1 := by
    rw [Real.sqrt_lt' (by positivity), sq]; exact_mod_cast s2
  have num : |(rootNum z.val.natAbs : ℝ) - 2 * Real.sqrt n| ≤ 1 := by
    unfold rootNum
    dsimp only
    rw [← unit_pow, hn]
    by_cases h : isqrt n * isqrt n = n
    · rw [if_pos h]
      have : Real.sqrt n = isqrt n := by
        rw [Real.sqrt_eq_iff_mul_self_eq (Nat.cast_nonneg _) (Nat.cast_nonneg _)]; exact_mod_cast h.symm
      rw [this]; push_cast; simp
    · rw [if_neg h, abs_le]; push_cast; constructor <;> linarith
  have big : (2 : ℝ) ^ 74 ≤ Real.sqrt n := by
    apply Real.le_sqrt_of_sq_le
    have : 2 ^ 148 ≤ n := by
      rw [← hn, unit_pow]
      have : 1 ≤ z.val.natAbs := by omega
      calc 2 ^ 148 ≤ 1 * 2 ^ 149 := by decide
        _ ≤ _ := Nat.mul_le_mul_right _ this
    rw [← pow_mul]; exact_mod_cast this
  have hf : roundMag (rootNum z.val.natAbs) 2 < 255 * 2 ^ 23 := by
    apply roundMag_fin (by decide)
    have hz' := val_finite hz
    have h3 : n ≤ 2 ^ 276 * 2 ^ 275 := by
      rw [← hn, unit_pow]
      have : z.val.natAbs ≤ 2 ^ 277 := by unfold top at hz'; omega
      refine Nat.le_trans (Nat.mul_le_mul_right _ this) ?_
      rw [← Nat.pow_add, ← Nat.pow_add]; exact Nat.pow_le_pow_right (by decide) (by decide)
    have h4 : isqrt n < 2 ^ 276 := by
      apply Nat.lt_of_not_le
      intro h
      have h5 : 2 ^ 276 * 2 ^ 276 ≤ isqrt n * isqrt n := Nat.mul_le_mul h h
      have h6 : (2 : Nat) ^ 276 * 2 ^ 275 < 2 ^ 276 * 2 ^ 276 := by rw [← Nat.pow_add, ← Nat.pow_add]; exact Nat.pow_lt_pow_right (by decide) (by decide)
      omega
    unfold rootNum
    dsimp only
    rw [← unit_pow, hn]
    generalize (2 : Nat) ^ 276 = T at *
    split <;> omega
  have hc := roundMag_close (by decide) hf
  refine ⟨by rw [finite_mag, magBits_pack (roundMag_lt _ _)]; exact hf, ?_⟩
  rw [re_eq, val_pack (roundMag_lt _ _)]
  simp only [Bool.false_eq_true, if_false]
  generalize magVal (roundMag (rootNum z.val.natAbs) 2) = m at *
  have key : |(m : ℝ) - Real.sqrt n| ≤ (1 / 2 ^ 24 + 1 / 2 ^ 60) * Real.sqrt n := by
    generalize (rootNum z.val.natAbs : ℝ) = p at *
    generalize Real.sqrt (n : ℝ) = S at *
    rw [abs_le] at *
    push_cast at hc
    norm_num at *
    constructor <;> linarith [hc.1, hc.2, num.1, num.2]
  rw [er] at key
  have e : (((m : Int) : ℝ) / unit - Real.sqrt z.re) = ((m : ℝ) - Real.sqrt z.re * unit) / unit := by push_cast; field_simp
  rw [e, abs_div, abs_of_pos hu, div_le_iff₀ hu]
  linarith

end F32
end Verif
