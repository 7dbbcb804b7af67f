import Verif.Lemmas.Narrow
import Verif.Lemmas.PyMesh2
/-! # A double made a float, over the rationals -/
set_option exponentiation.threshold 2000

namespace Verif
namespace F64

theorem toFloat_near {d : F64} (hf : d.finite = true) {M : ℚ} (hM : M < 2 ^ 127) (hb : |d.real| ≤ M) :
    F32.finite d.toFloat = true ∧ |d.toFloat.real - d.real| ≤ M / 2 ^ 24 + 1 / 2 ^ 150 := by
  obtain ⟨s, b⟩ := toFloat_parts d hf
  have hu := unitD_pos
  have habs : |d.real| = (d.magVal : ℚ) / (2 ^ 1074 : Nat) := by
    unfold real
    have := mag_nonneg d
    split
    · rw [neg_one_mul, abs_neg, abs_of_nonneg this]
    · rw [one_mul, abs_of_nonneg this]
  have hlt : d.magVal < 2 ^ 1201 := by
    rw [habs, div_le_iff₀ hu] at hb
    have h2 : (d.magVal : ℚ) < ((2 ^ 1201 : Nat) : ℚ) := by
      refine lt_of_le_of_lt hb ?_
      have : M * ((2 ^ 1074 : Nat) : ℚ) < 2 ^ 127 * ((2 ^ 1074 : Nat) : ℚ) := by
        exact mul_lt_mul_of_pos_right hM hu
      refine lt_of_lt_of_eq this ?_
      rw [Nat.cast_pow, Nat.cast_pow, Nat.cast_ofNat, ← pow_add]
    exact_mod_cast h2
  obtain ⟨n0, n1, n2⟩ := narrow_near d hf hlt
  refine ⟨by rw [F32.finite_mag, b]; exact n0, ?_⟩
  have hv : d.toFloat.real = (if d.negative then -1 else 1) * ((2 ^ 925 * F32.magVal d.narrowBits : Nat) : ℚ) / (2 ^ 1074 : Nat) := by
    unfold F32.real F32.val
    rw [s, b]
    have h3 : ((2 ^ 1074 : Nat) : ℚ) = ((2 ^ 925 : Nat) : ℚ) * ((2 ^ 149 : Nat) : ℚ) := by
      rw [← Nat.cast_mul, ← Nat.pow_add]
    have h4 : ((2 ^ 925 : Nat) : ℚ) ≠ 0 := Nat.cast_ne_zero.2 (Nat.two_pow_pos 925).ne'
    rw [h3, Nat.cast_mul, ← _root_.mul_assoc, _root_.mul_comm _ ((2 ^ 925 : Nat) : ℚ), _root_.mul_assoc, mul_div_mul_left _ _ h4]
    split
    · rw [Int.cast_neg, Int.cast_natCast, neg_one_mul]
    · rw [Int.cast_natCast, one_mul]
  have hd : |d.toFloat.real - d.real| = |((2 ^ 925 * F32.magVal d.narrowBits : Nat) : ℚ) - d.magVal| / (2 ^ 1074 : Nat) := by
    rw [hv]
    unfold real
    rw [← mul_div_assoc, ← sub_div, ← mul_sub, abs_div, abs_mul, abs_of_pos hu]
    congr 1
    split <;> simp
  rw [hd, div_le_iff₀ hu]
  rw [habs, div_le_iff₀ hu] at hb
  have e : (M / 2 ^ 24 + 1 / 2 ^ 150) * ((2 ^ 1074 : Nat) : ℚ) = (M * ((2 ^ 1074 : Nat) : ℚ) + ((2 ^ 948 : Nat) : ℚ)) / 2 ^ 24 := by
    have : ((2 ^ 1074 : Nat) : ℚ) = ((2 ^ 948 : Nat) : ℚ) * 2 ^ 126 := by
      rw [Nat.cast_pow, Nat.cast_pow, Nat.cast_ofNat, ← pow_add]
    rw [this]
    generalize ((2 ^ 948 : Nat) : ℚ) = u
    ring
  rw [e, le_div_iff₀ (by positivity)]
  generalize 2 ^ 925 * F32.magVal d.narrowBits = X at *
  have k1 : (2 ^ 24 : ℚ) * X ≤ 2 ^ 24 * d.magVal + (d.magVal + ((2 ^ 948 : Nat) : ℚ)) := by
    have := (Nat.cast_le (α := ℚ)).2 n1
    rw [Nat.cast_mul, Nat.cast_add, Nat.cast_mul, Nat.cast_add, Nat.cast_pow, Nat.cast_ofNat] at this
    exact this
  have k2 : (2 ^ 24 : ℚ) * d.magVal ≤ 2 ^ 24 * X + (d.magVal + ((2 ^ 948 : Nat) : ℚ)) := by
    have := (Nat.cast_le (α := ℚ)).2 n2
    rw [Nat.cast_mul, Nat.cast_add, Nat.cast_mul, Nat.cast_add, Nat.cast_pow, Nat.cast_ofNat] at this
    exact this
  generalize (X : ℚ) = x at *
  generalize (d.magVal : ℚ) = y at *
  generalize ((2 ^ 948 : Nat) : ℚ) = u at *
  generalize M * ((2 ^ 1074 : Nat) : ℚ) = z at *
  rcases abs_cases (x - y) with ⟨h, _⟩ | ⟨h, _⟩ <;> rw [h] <;> linarith

end F64
end Verif
