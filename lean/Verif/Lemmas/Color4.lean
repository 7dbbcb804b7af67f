import Mathlib.Data.Nat.Cast.Order.Field
import Verif.Lemmas.Color3
/-! # Colours: hues -/

set_option exponentiation.threshold 2000

namespace Verif
open ColorSpec

theorem Dbl.near_err {p q : Nat} (hq : 0 < q) : |(Dbl.near p q : ℚ) - (p : ℚ) / q| ≤ 1 / 2 ^ 53 * ((p : ℚ) / q) + 1 / 2 := by
  unfold Dbl.near
  have hq' : (0 : ℚ) < q := Nat.cast_pos.2 hq
  generalize hl : (p / q).log2 - 52 = e
  have h1 := F32.nearest_err (p := p) (q := q * 2 ^ e) (Nat.mul_pos hq (Nat.two_pow_pos _))
  generalize F32.nearest p (q * 2 ^ e) = n at *
  have he : (2 : ℚ) ^ e ≤ 1 + (p : ℚ) / q / 2 ^ 52 := by
    by_cases h0 : e = 0
    · subst h0; have : 0 ≤ (p : ℚ) / q / 2 ^ 52 := by positivity
      simp only [pow_zero]; linarith
    · have h2 : p / q ≠ 0 := by intro h; rw [h] at hl; simp at hl; omega
      have h3 := Nat.log2_self_le h2
      have h4 : 2 ^ (52 + e) ≤ p / q := Nat.le_trans (Nat.pow_le_pow_right (by decide) (by omega)) h3
      have h5 : ((2 ^ (52 + e) : Nat) : ℚ) ≤ (p : ℚ) / q := le_trans (by exact_mod_cast h4) Nat.cast_div_le
      push_cast at h5
      rw [pow_add] at h5
      have : (2 : ℚ) ^ e ≤ (p : ℚ) / q / 2 ^ 52 := by rw [le_div_iff₀ (by positivity)]; linarith
      linarith
  have h2 : (2 * (n * (q * 2 ^ e)) : ℚ) ≤ 2 * p + q * 2 ^ e := by exact_mod_cast h1.1
  have h3 : (2 * p : ℚ) ≤ 2 * (n * (q * 2 ^ e)) + q * 2 ^ e := by exact_mod_cast h1.2
  have h4 : (p : ℚ) = (p : ℚ) / q * q := by rw [div_mul_cancel₀ _ (ne_of_gt hq')]
  generalize (p : ℚ) / q = r at *
  rw [h4] at h2 h3
  have h5 : 2 * ((n : ℚ) * 2 ^ e) ≤ 2 * r + 2 ^ e := by
    rw [← mul_le_mul_iff_left₀ hq']; linarith
  have h6 : 2 * r ≤ 2 * ((n : ℚ) * 2 ^ e) + 2 ^ e := by
    rw [← mul_le_mul_iff_left₀ hq']; linarith
  push_cast
  rw [abs_le]
  constructor <;> linarith

namespace F32

theorem roundMag_real {p q : Nat} (hq : 0 < q) (h : (p : ℚ) / q / unit ≤ 2 ^ 20) :
    roundMag p q < 255 * 2 ^ 23 ∧ |(magVal (roundMag p q) : ℚ) / unit - (p : ℚ) / q / unit| ≤ 1 / 2 ^ 24 * ((p : ℚ) / q / unit) + 1 / 2 ^ 40 := by
  have hq' : (0 : ℚ) < q := Nat.cast_pos.2 hq
  have hpq : p ≤ 2 ^ 20 * unit * q := by
    rw [div_le_iff₀ unitQ_pos, div_le_iff₀ hq'] at h
    exact_mod_cast h
  have hm : magVal (roundMag p q) ≤ 2 ^ 20 * unit := by
    have := magVal_le (roundMag_mono (p := p) (q := q) (p' := 2 ^ 20 * unit) (q' := 1) hq (by decide) (by rw [Nat.mul_one]; exact hpq))
    refine Nat.le_trans this ?_
    have h3 := fl_ofNat (2 ^ 20 * unit)
    have h0 : ((2 ^ 20 * unit : Nat) : Int) = (2 : Int) ^ 20 * unit := by rw [Int.natCast_mul, Int.natCast_pow]; rfl
    rw [h0, fl_unit_pow 20 (by decide), ← h0] at h3
    exact Nat.le_of_eq (Int.ofNat_inj.1 h3).symm
  have hlt := Nat.lt_of_le_of_lt hm (unit_top 20 (by decide))
  have hr : roundMag p q < 255 * 2 ^ 23 := by rw [← magVal_inf, magVal_lt_iff] at hlt; exact hlt
  refine ⟨hr, ?_⟩
  have he := roundMag_err hq hr
  generalize magVal (roundMag p q) = v at *
  have a1 : (2 ^ 24 * (v * q) : ℚ) ≤ (2 ^ 24 + 1) * p ∨ (2 * (v * q) : ℚ) ≤ 2 * p + q := by
    rcases he.1 with h | h
    · left; exact_mod_cast h
    · right; exact_mod_cast h
  have a2 : ((2 ^ 24 - 1) * p : ℚ) ≤ 2 ^ 24 * (v * q) ∨ (2 * p : ℚ) ≤ 2 * (v * q) + q := by
    rcases he.2 with h | h
    · left
      have : (((2 ^ 24 - 1) * p : Nat) : ℚ) ≤ ((2 ^ 24 * (v * q) : Nat) : ℚ) := by exact_mod_cast h
      push_cast at this
      norm_num at this ⊢
      exact this
    · right; exact_mod_cast h
  have h4 : (p : ℚ) = (p : ℚ) / q * q := by rw [div_mul_cancel₀ _ (ne_of_gt hq')]
  have hr0 : 0 ≤ (p : ℚ) / q := by positivity
  generalize (p : ℚ) / q = r at *
  rw [h4] at a1 a2
  have b1 : 2 ^ 24 * (v : ℚ) ≤ (2 ^ 24 + 1) * r + 2 ^ 23 := by
    rw [← mul_le_mul_iff_left₀ hq']
    rcases a1 with h | h <;> nlinarith [mul_nonneg hr0 (le_of_lt hq')]
  have b2 : (2 ^ 24 - 1) * r ≤ 2 ^ 24 * (v : ℚ) + 2 ^ 23 := by
    rw [← mul_le_mul_iff_left₀ hq']
    rcases a2 with h | h <;> nlinarith [mul_nonneg hr0 (le_of_lt hq')]
  have hu : (2 : ℚ) ^ 40 ≤ unit := by exact_mod_cast unit_big
  have e1 : (1 : ℚ) ≤ 1 / 2 ^ 40 * unit := by rw [div_mul_eq_mul_div, one_mul, le_div_iff₀ (by norm_num), one_mul]; exact hu
  rw [← sub_div, abs_div, abs_of_pos unitQ_pos, div_le_iff₀ unitQ_pos, add_mul, mul_assoc, div_mul_cancel₀ _ unitQ_ne, abs_le]
  constructor <;> linarith

end F32

/-- `1.0`, as a `double`. -/
theorem Dbl.one_pos : (0 : ℚ) < (Dbl.one : ℚ) := Nat.cast_pos.2 (Nat.two_pow_pos _)
theorem Dbl.one_split : (Dbl.one : ℚ) = F32.unit * (2 ^ 925 : Nat) := by
  have : Dbl.one = F32.unit * 2 ^ 925 := by unfold Dbl.one F32.unit; rw [← Nat.pow_add]
  rw [this]; push_cast; rfl
theorem Dbl.one_big : (2 : ℚ) ^ 60 ≤ (Dbl.one : ℚ) := by
  have : 2 ^ 60 ≤ Dbl.one := Nat.pow_le_pow_right (by decide) (by decide)
  exact_mod_cast this

/-- The exact zigzag `1 - |h mod 2 - 1|`. -/
theorem Dbl.tent_close (h : Nat) : ∃ k : Nat, 2 * (k : ℚ) ≤ (h : ℚ) / Dbl.one ∧ (h : ℚ) / Dbl.one < 2 * k + 2 ∧
    |(Dbl.tent h : ℚ) / Dbl.one - (1 - |(h : ℚ) / Dbl.one - 2 * k - 1|)| ≤ 1 / 2 ^ 48 := by
  have ho := Dbl.one_pos
  have hb := Dbl.one_big
  have hne : (Dbl.one : ℚ) ≠ 0 := ne_of_gt ho
  have ho' : 0 < Dbl.one := Nat.two_pow_pos _
  refine ⟨h / (2 * Dbl.one), ?_, ?_, ?_⟩
  · rw [le_div_iff₀ ho]
    have := Nat.div_mul_le_self h (2 * Dbl.one)
    have h2 : ((h / (2 * Dbl.one) * (2 * Dbl.one) : Nat) : ℚ) ≤ (h : ℚ) := by exact_mod_cast this
    rw [Nat.cast_mul, Nat.cast_mul, Nat.cast_ofNat] at h2
    generalize ((h / (2 * Dbl.one) : Nat) : ℚ) = k at *
    linarith
  · rw [div_lt_iff₀ ho]
    have := Nat.lt_mul_div_succ h (b := 2 * Dbl.one) (by omega)
    have h2 : (h : ℚ) < ((2 * Dbl.one * (h / (2 * Dbl.one) + 1) : Nat) : ℚ) := by exact_mod_cast this
    rw [Nat.cast_mul, Nat.cast_mul, Nat.cast_ofNat, Nat.cast_add, Nat.cast_one] at h2
    generalize ((h / (2 * Dbl.one) : Nat) : ℚ) = k at *
    linarith
  · have hf : ((h % (2 * Dbl.one) : Nat) : ℚ) = h - 2 * (h / (2 * Dbl.one) : Nat) * Dbl.one := by
      have := Nat.mod_add_div h (2 * Dbl.one)
      have h2 : ((h % (2 * Dbl.one) + 2 * Dbl.one * (h / (2 * Dbl.one)) : Nat) : ℚ) = h := by exact_mod_cast this
      rw [Nat.cast_add, Nat.cast_mul, Nat.cast_mul, Nat.cast_ofNat] at h2
      linarith
    have hlt := Nat.mod_lt h (show 0 < 2 * Dbl.one by omega)
    unfold Dbl.tent
    simp only
    generalize h % (2 * Dbl.one) = f at *
    generalize ((h / (2 * Dbl.one) : Nat) : ℚ) = k at *
    generalize hd : (if f ≤ Dbl.one then Dbl.one - f else f - Dbl.one) = d
    have hdq : (d : ℚ) = |(f : ℚ) - Dbl.one| := by
      rw [← hd]
      split
      · rename_i hle
        rw [Nat.cast_sub hle, abs_sub_comm, abs_of_nonneg]
        have : (f : ℚ) ≤ Dbl.one := by exact_mod_cast hle
        linarith
      · rename_i hle
        rw [Nat.cast_sub (by omega), abs_of_nonneg]
        have : (Dbl.one : ℚ) ≤ f := by exact_mod_cast (show Dbl.one ≤ f by omega)
        linarith
    have hdle : d ≤ Dbl.one := by rw [← hd]; clear hd hdq hf ho hb hne; split <;> omega
    have hdle' : (d : ℚ) ≤ Dbl.one := by exact_mod_cast hdle
    have n1 := Dbl.near_err (p := d) (q := 1) (by decide)
    generalize Dbl.near d 1 = t at *
    have n2 := Dbl.near_err (p := Dbl.one - t) (q := 1) (by decide)
    generalize Dbl.near (Dbl.one - t) 1 = z at *
    rw [Nat.cast_one, div_one] at n1 n2
    have hs : |((Dbl.one - t : Nat) : ℚ) - (Dbl.one - d)| ≤ |(t : ℚ) - d| := by
      by_cases htt : t ≤ Dbl.one
      · rw [Nat.cast_sub htt, show (Dbl.one : ℚ) - t - (Dbl.one - d) = -((t : ℚ) - d) by ring, abs_neg]
      · rw [Nat.sub_eq_zero_of_le (by omega), Nat.cast_zero]
        have : (Dbl.one : ℚ) ≤ t := by exact_mod_cast (show Dbl.one ≤ t by omega)
        rw [abs_le]
        have := le_abs_self ((t : ℚ) - d)
        constructor <;> linarith
    have hle : ((Dbl.one - t : Nat) : ℚ) ≤ Dbl.one := by exact_mod_cast Nat.sub_le _ _
    have e1 : (h : ℚ) / Dbl.one - 2 * k - 1 = ((f : ℚ) - Dbl.one) / Dbl.one := by
      rw [hf]; field_simp
    rw [e1, abs_div, abs_of_pos ho, ← hdq]
    have e2 : (z : ℚ) / Dbl.one - (1 - (d : ℚ) / Dbl.one) = ((z : ℚ) - (Dbl.one - d)) / Dbl.one := by field_simp
    rw [e2, abs_div, abs_of_pos ho, div_le_iff₀ ho]
    generalize ((Dbl.one - t : Nat) : ℚ) = w at *
    generalize (Dbl.one : ℚ) = O at *
    rw [abs_le] at n2 hs n1
    have t2 : |(t : ℚ) - d| ≤ 1 / 2 ^ 53 * O + 1 / 2 := by
      rw [abs_le]; constructor <;> linarith
    have hb2 : (1 : ℚ) ≤ 1 / 2 ^ 60 * O := by norm_num at *; linarith
    rw [abs_le]
    constructor <;> norm_num at * <;> linarith

end Verif
