import Mathlib.Tactic.Linarith
import Mathlib.Tactic.NormNum
import Mathlib.Tactic.Ring
import Mathlib.Tactic.Positivity
import Mathlib.Tactic.FieldSimp
import Verif.Spec.Color
import Verif.Lemmas.Color2
/-! # Colours: arithmetic over the rationals -/

namespace Verif
namespace F32
open ColorSpec

theorem real_eq (x : F32) : x.real = (x.val : ℚ) / (unit : ℚ) := rfl
theorem unitQ_pos : (0 : ℚ) < (unit : ℚ) := Nat.cast_pos.2 unit_pos
theorem unitQ_ne : (unit : ℚ) ≠ 0 := ne_of_gt unitQ_pos
theorem val_real (x : F32) : (x.val : ℚ) = x.real * unit := by rw [real_eq, div_mul_cancel₀ _ unitQ_ne]

theorem real_le_iff {x : F32} {q : Int} : x.val ≤ q * unit ↔ x.real ≤ q := by
  rw [real_eq, div_le_iff₀ unitQ_pos]; exact_mod_cast Iff.rfl
theorem le_real_iff {x : F32} {q : Int} : q * unit ≤ x.val ↔ (q : ℚ) ≤ x.real := by
  rw [real_eq, le_div_iff₀ unitQ_pos]; exact_mod_cast Iff.rfl
theorem real_lt_iff {x : F32} {q : Int} : x.val < q * unit ↔ x.real < q := by
  rw [real_eq, div_lt_iff₀ unitQ_pos]; exact_mod_cast Iff.rfl
theorem lt_real_iff {x : F32} {q : Int} : q * unit < x.val ↔ (q : ℚ) < x.real := by
  rw [real_eq, lt_div_iff₀ unitQ_pos]; exact_mod_cast Iff.rfl
theorem real_lt_real {x y : F32} : x.val < y.val ↔ x.real < y.real := by
  rw [real_eq, real_eq, div_lt_div_iff_of_pos_right unitQ_pos]; exact_mod_cast Iff.rfl
theorem real_le_real {x y : F32} : x.val ≤ y.val ↔ x.real ≤ y.real := by
  rw [real_eq, real_eq, div_le_div_iff_of_pos_right unitQ_pos]; exact_mod_cast Iff.rfl
theorem real_nonneg {x : F32} : 0 ≤ x.val ↔ 0 ≤ x.real := by
  have := @le_real_iff x 0; rwa [Int.zero_mul, Int.cast_zero] at this
theorem real_le_one {x : F32} : x.val ≤ unit ↔ x.real ≤ 1 := by
  have := @real_le_iff x 1; rwa [Int.one_mul, Int.cast_one] at this

theorem one_real : one.real = 1 := by rw [real_eq, one_unit, Int.cast_natCast]; exact div_self unitQ_ne
theorem zero_real : zero.real = 0 := by rw [real_eq, zero_unit]; simp
theorem two_real : two.real = 2 := by
  rw [real_eq, two_unit]; push_cast; rw [mul_div_assoc, div_self unitQ_ne, mul_one]
theorem c255_real : c255.real = 255 := by
  rw [real_eq, c255_unit]; push_cast; rw [mul_div_assoc, div_self unitQ_ne, mul_one]
theorem half_real : ofHalf.real = 1 / 2 := by
  have := half_unit
  rw [real_eq, div_eq_div_iff unitQ_ne (by norm_num), one_mul, _root_.mul_comm]; exact_mod_cast this
theorem six_real : six.real = 6 := by
  have h : six.val = 6 * unit := by rw [show six.val = 6 * 2 ^ 149 by decide +kernel, unit_int]
  rw [real_eq, h]; push_cast; rw [mul_div_assoc, div_self unitQ_ne, mul_one]
theorem six_finite : F32.finite six = true := by decide +kernel
theorem ofNat_real (n : Nat) (h : n < 2 ^ 24) : (ofNat n).real = n := by
  rw [real_eq, (ofNat_small n h).2]; push_cast; rw [mul_div_assoc, div_self unitQ_ne, mul_one]

theorem abs_small {a : Int} {k : Nat} (h : |(a : ℚ) / unit| ≤ k) : a.natAbs ≤ k * unit := by
  rw [abs_div, abs_of_pos unitQ_pos, div_le_iff₀ unitQ_pos] at h
  have : ((a.natAbs : Nat) : ℚ) ≤ ((k * unit : Nat) : ℚ) := by rw [Nat.cast_natAbs]; push_cast; exact_mod_cast h
  exact_mod_cast this

theorem scale {d a : Int} (h : 2 ^ 24 * d.natAbs ≤ a.natAbs) : |(d : ℚ) / unit| ≤ 1 / 2 ^ 24 * |(a : ℚ) / unit| := by
  rw [abs_div, abs_div, abs_of_pos unitQ_pos, ← mul_div_assoc]
  apply div_le_div_of_nonneg_right _ (le_of_lt unitQ_pos)
  have : ((2 ^ 24 * d.natAbs : Nat) : ℚ) ≤ ((a.natAbs : Nat) : ℚ) := by exact_mod_cast h
  push_cast [Nat.cast_natAbs] at this
  have e : |(d : ℚ)| = ((|d| : Int) : ℚ) := by push_cast; rfl
  linarith

theorem real_add' {x y : F32} (k : Nat) (hk : k ≤ 100) (hx : F32.finite x = true) (hy : F32.finite y = true) (h : |x.real + y.real| ≤ 2 ^ k) :
    F32.finite (x.add y) = true ∧ |(x.add y).real - (x.real + y.real)| ≤ 1 / 2 ^ 24 * |x.real + y.real| := by
  have e : x.real + y.real = ((x.val + y.val : Int) : ℚ) / unit := by rw [real_eq, real_eq]; push_cast; ring
  rw [e] at h ⊢
  obtain ⟨h1, _, h3⟩ := add_close' k hk hx hy (abs_small (k := 2 ^ k) (by exact_mod_cast h))
  refine ⟨h1, ?_⟩
  have e2 : (x.add y).real - ((x.val + y.val : Int) : ℚ) / unit = (((x.add y).val - (x.val + y.val) : Int) : ℚ) / unit := by
    rw [real_eq]; push_cast; ring
  rw [e2]
  exact scale h3

theorem real_add {x y : F32} (hx : F32.finite x = true) (hy : F32.finite y = true) (h : |x.real + y.real| ≤ 2 ^ 20) :
    F32.finite (x.add y) = true ∧ |(x.add y).real - (x.real + y.real)| ≤ 1 / 2 ^ 24 * |x.real + y.real| :=
  real_add' 20 (by decide) hx hy h

theorem real_sub' {x y : F32} (k : Nat) (hk : k ≤ 100) (hx : F32.finite x = true) (hy : F32.finite y = true) (h : |x.real - y.real| ≤ 2 ^ k) :
    F32.finite (x.sub y) = true ∧ |(x.sub y).real - (x.real - y.real)| ≤ 1 / 2 ^ 24 * |x.real - y.real| := by
  have e : y.neg.real = - y.real := by rw [real_eq, real_eq, neg_val]; push_cast; ring
  have := real_add' k hk hx (neg_finite hy) (by rw [e, ← sub_eq_add_neg]; exact h)
  rw [e, ← sub_eq_add_neg] at this
  exact this

theorem real_sub {x y : F32} (hx : F32.finite x = true) (hy : F32.finite y = true) (h : |x.real - y.real| ≤ 2 ^ 20) :
    F32.finite (x.sub y) = true ∧ |(x.sub y).real - (x.real - y.real)| ≤ 1 / 2 ^ 24 * |x.real - y.real| :=
  real_sub' 20 (by decide) hx hy h

theorem real_mul' {x y : F32} (k : Nat) (hk : k ≤ 100) (hx : F32.finite x = true) (hy : F32.finite y = true) (h : |x.real * y.real| ≤ 2 ^ k) :
    F32.finite (x.mul y) = true ∧ |(x.mul y).real - x.real * y.real| ≤ 1 / 2 ^ 24 * |x.real * y.real| + 1 / 2 ^ 40 := by
  have hb : x.val.natAbs * y.val.natAbs ≤ 2 ^ k * unit * unit := by
    have : ((x.val.natAbs * y.val.natAbs : Nat) : ℚ) ≤ ((2 ^ k * unit * unit : Nat) : ℚ) := by
      push_cast [Nat.cast_natAbs]
      rw [val_real, val_real, ← abs_mul, mul_mul_mul_comm, abs_mul, abs_of_pos (mul_pos unitQ_pos unitQ_pos), mul_assoc]
      exact mul_le_mul_of_nonneg_right h (le_of_lt (mul_pos unitQ_pos unitQ_pos))
    exact_mod_cast this
  obtain ⟨h1, h2⟩ := mul_close' k hk hx hy hb
  refine ⟨h1, ?_⟩
  have h3 : ((2 ^ 24 * ((x.mul y).val * unit - x.val * y.val).natAbs : Nat) : ℚ) ≤ (((x.val * y.val).natAbs + 2 ^ 23 * unit : Nat) : ℚ) := by exact_mod_cast h2
  push_cast [Nat.cast_natAbs] at h3
  rw [val_real, val_real, val_real] at h3
  have e1 : (x.mul y).real * unit * unit - x.real * unit * (y.real * unit) = ((x.mul y).real - x.real * y.real) * (unit * unit) := by ring
  have e2 : x.real * unit * (y.real * unit) = x.real * y.real * (unit * unit) := by ring
  rw [e1, e2, abs_mul, abs_mul _ ((unit : ℚ) * unit), abs_of_pos (mul_pos unitQ_pos unitQ_pos)] at h3
  have hu : (2 : ℚ) ^ 40 ≤ unit := by exact_mod_cast unit_big
  have h4 : (2 : ℚ) ^ 24 * |(x.mul y).real - x.real * y.real| ≤ |x.real * y.real| + 2 ^ 23 / unit := by
    have hp := mul_pos unitQ_pos unitQ_pos
    rw [← mul_le_mul_iff_left₀ hp]
    have e3 : (2 : ℚ) ^ 23 / unit * (unit * unit) = 2 ^ 23 * unit := by field_simp
    rw [add_mul, e3]; linarith
  have h5 : (2 : ℚ) ^ 23 / unit ≤ 2 ^ 23 / 2 ^ 40 := div_le_div_of_nonneg_left (by norm_num) (by norm_num) hu
  norm_num at *
  linarith

theorem real_mul {x y : F32} (hx : F32.finite x = true) (hy : F32.finite y = true) (h : |x.real * y.real| ≤ 2 ^ 20) :
    F32.finite (x.mul y) = true ∧ |(x.mul y).real - x.real * y.real| ≤ 1 / 2 ^ 24 * |x.real * y.real| + 1 / 2 ^ 40 :=
  real_mul' 20 (by decide) hx hy h

/-- Truncation. -/
theorem real_toU8 {x : F32} {e : ℚ} (hx : F32.finite x = true) (h1 : |x.real - e| ≤ 1 / 1024) (h2 : 0 ≤ e) (h3 : e ≤ 255) :
    ∃ c : UInt8, x.toU8 = .ok c ∧ Truncates c e := by
  rw [abs_le] at h1
  obtain ⟨h1a, h1b⟩ := h1
  have a1 : -(unit : Int) < x.val := by
    have := (@lt_real_iff x (-1)).2 (by push_cast; linarith)
    omega
  have a2 : x.val < 256 * unit := (@real_lt_iff x 256).2 (by push_cast; linarith)
  obtain ⟨c, k1, k2⟩ := toU8_ok hx a1 a2
  refine ⟨c, k1, ?_⟩
  have hu := unit_pos
  by_cases hn : 0 ≤ x.val
  · have k3 : (c.toNat : Int) = x.val / unit := by rw [k2]; exact Int.toNat_of_nonneg (Int.ediv_nonneg hn (by omega))
    have k4 := Int.ediv_mul_le x.val (b := (unit : Int)) (by omega)
    have k5 := Int.lt_ediv_add_one_mul_self x.val (b := (unit : Int)) (by omega)
    rw [← k3] at k4 k5
    have k6 := le_real_iff.1 k4
    have k7 := real_lt_iff.1 k5
    push_cast at k6 k7
    constructor <;> linarith
  · have k3 : x.val / (unit : Int) < 0 := Int.ediv_neg_of_neg_of_pos (by omega) (by omega)
    have k4 : c.toNat = 0 := by rw [k2]; omega
    have k5 : x.real < 0 := by
      have := (@real_lt_iff x 0).1 (by omega)
      exact_mod_cast this
    unfold Truncates
    rw [k4]; push_cast
    constructor <;> linarith

theorem clamp01_real {x : F32} (h : x.isNan = false) :
    F32.finite x.clamp01 = true ∧ x.clamp01.real = unitRange x.real ∧ 0 ≤ x.clamp01.real ∧ x.clamp01.real ≤ 1 := by
  obtain ⟨h1, h2, h3, h4⟩ := clamp01_spec h
  rw [← h2] at h3 h4
  refine ⟨h1, ?_, real_nonneg.1 h3, real_le_one.1 h4⟩
  rw [real_eq, h2, limited, unitRange, real_eq]
  push_cast
  rw [← max_div_div_right (le_of_lt unitQ_pos), zero_div, ← min_div_div_right (le_of_lt unitQ_pos), div_self unitQ_ne]

end F32
end Verif
