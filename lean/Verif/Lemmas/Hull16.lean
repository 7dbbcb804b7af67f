import Mathlib.Analysis.SpecialFunctions.Complex.Arg
import Mathlib.Analysis.SpecialFunctions.Trigonometric.Bounds
import Verif.Lemmas.Hull15
set_option exponentiation.threshold 300
/-! # Trigonometric functions as accurate as assumed exist -/

namespace Verif
namespace Hull
open F32

/-- A float with the given value, if there is one. -/
def ofVal (n : Int) : F32 := F32.pack (n < 0) (F32.roundMag n.natAbs 1)

theorem ofVal_cells {k : Int} (h : k.natAbs < 2 ^ 24) : F32.finite (ofVal (2 ^ 127 * k)) = true ∧ (ofVal (2 ^ 127 * k)).val = 2 ^ 127 * k := by
  have e := fl_cells (g := 127) (by omega) k h
  have l := cells_lt (g := 127) (by omega) k h
  generalize hn : (2 : Int) ^ 127 * k = n at *
  have hm : roundMag n.natAbs 1 < 255 * 2 ^ 23 := roundMag_fin (by decide) (by
    rw [Nat.mul_one]; exact Nat.le_of_lt (Nat.lt_of_lt_of_le l (Nat.pow_le_pow_right (by decide) (by decide))))
  have hm' : roundMag n.natAbs 1 < 2 ^ 31 := by omega
  unfold ofVal
  refine ⟨?_, ?_⟩
  · rw [finite_mag, magBits_pack hm']; exact hm
  · rw [val_pack hm']
    unfold fl at e
    simpa using e

theorem near_float (v : ℝ) (hv : |v| ≤ 1) : ∃ x : F32, F32.finite x = true ∧ |x.re - v| ≤ 1 / 2 ^ 23 := by
  obtain ⟨f, e⟩ := ofVal_cells (k := round (v * 2 ^ 22)) (by
    have h1 := abs_sub_round (v * 2 ^ 22)
    have h2 : |v * 2 ^ 22| ≤ 2 ^ 22 := by rw [abs_mul, abs_of_pos (by norm_num : (0 : ℝ) < 2 ^ 22)]; linarith
    generalize round (v * 2 ^ 22) = m at *
    have h3 : |((m : Int) : ℝ)| ≤ 2 ^ 22 + 1 := by
      have h4 := abs_le.1 h1
      have h5 := abs_le.1 h2
      rw [abs_le]; constructor <;> linarith [h4.1, h4.2, h5.1, h5.2]
    have h4 : (m.natAbs : ℝ) ≤ 2 ^ 22 + 1 := by rw [Nat.cast_natAbs]; push_cast; exact h3
    have h5 : m.natAbs ≤ 2 ^ 22 + 1 := by exact_mod_cast h4
    omega)
  refine ⟨_, f, ?_⟩
  have h1 := abs_sub_round (v * 2 ^ 22)
  have er : (ofVal (2 ^ 127 * round (v * 2 ^ 22))).re = (round (v * 2 ^ 22) : ℝ) / 2 ^ 22 := by
    unfold re
    rw [e]
    rw [Int.cast_mul, Int.cast_pow, Int.cast_ofNat, show (2 : ℝ) ^ 149 = 2 ^ 127 * 2 ^ 22 by rw [← pow_add], mul_div_mul_left _ _ (by positivity)]
  rw [er]
  have : (round (v * 2 ^ 22) : ℝ) / 2 ^ 22 - v = -(v * 2 ^ 22 - round (v * 2 ^ 22)) / 2 ^ 22 := by ring
  rw [this, abs_div, abs_neg, abs_of_pos (by norm_num : (0 : ℝ) < 2 ^ 22), div_le_iff₀ (by norm_num)]
  refine le_trans h1 (le_of_eq (by norm_num))

/-- An angle as a number of steps of `2^-25`. -/
noncomputable def stepsOf (a : ℝ) : F32 := UInt32.ofNat (round ((a + 4) * 2 ^ 25)).toNat
noncomputable def angleOf (x : F32) : ℝ := (x.toNat : ℝ) / 2 ^ 25 - 4

theorem angleOf_stepsOf {a : ℝ} (h1 : -4 ≤ a) (h2 : a ≤ 4) : |angleOf (stepsOf a) - a| ≤ 1 / 2 ^ 26 := by
  have hr := abs_sub_round ((a + 4) * 2 ^ 25)
  unfold angleOf stepsOf
  generalize round ((a + 4) * 2 ^ 25) = m at *
  have hr' := abs_le.1 hr
  have n0 : (0 : ℝ) ≤ (a + 4) * 2 ^ 25 := mul_nonneg (by linarith) (by norm_num)
  have p : 0 ≤ m := by
    by_contra hc
    have hc' : m ≤ -1 := by omega
    have hc'' : (m : ℝ) ≤ -1 := by exact_mod_cast hc'
    linarith [hr'.2]
  have b : m.toNat < 2 ^ 32 := by
    have : (m : ℝ) < 2 ^ 32 := by
      have : (a + 4) * 2 ^ 25 ≤ 8 * 2 ^ 25 := mul_le_mul_of_nonneg_right (by linarith) (by norm_num)
      have k : (8 : ℝ) * 2 ^ 25 + 1 < 2 ^ 32 := by norm_num
      linarith [hr'.1]
    have : m < 2 ^ 32 := by exact_mod_cast this
    omega
  have e : (UInt32.ofNat m.toNat).toNat = m.toNat := Nat.mod_eq_of_lt b
  have c : (((UInt32.ofNat m.toNat).toNat : Nat) : ℝ) = (m : ℝ) := by
    rw [e]
    have : ((m.toNat : Int)) = m := Int.toNat_of_nonneg p
    exact_mod_cast this
  show |((UInt32.ofNat m.toNat).toNat : ℝ) / 2 ^ 25 - 4 - a| ≤ _
  rw [c]
  have : (m : ℝ) / 2 ^ 25 - 4 - a = -((a + 4) * 2 ^ 25 - m) / 2 ^ 25 := by ring
  rw [this, abs_div, abs_neg, abs_of_pos (by norm_num : (0 : ℝ) < 2 ^ 25), div_le_iff₀ (by norm_num)]
  refine le_trans hr (le_of_eq (by norm_num))

/-- Cosine, sine and angle, rounded. -/
theorem accurate_exists : ∃ t : Trig, t.Accurate := by
  choose f ff fe using near_float
  let t : Trig := ⟨fun y x => stepsOf (Complex.arg ⟨x.re, y.re⟩), fun a => f (Real.sin (angleOf a)) (Real.abs_sin_le_one _), fun a => f (Real.cos (angleOf a)) (Real.abs_cos_le_one _)⟩
  have near : ∀ x y : ℝ, |x * x + y * y - 1| ≤ 1 / 2 ^ 20 → |Real.cos (Complex.arg ⟨x, y⟩) - x| ≤ 9 / 2 ^ 24 ∧ |Real.sin (Complex.arg ⟨x, y⟩) - y| ≤ 9 / 2 ^ 24 := by
    intro x y h
    have hn : ‖(⟨x, y⟩ : ℂ)‖ * ‖(⟨x, y⟩ : ℂ)‖ = x * x + y * y := by
      rw [Complex.norm_mul_self_eq_normSq, Complex.normSq_apply]
    have n0 := norm_nonneg (⟨x, y⟩ : ℂ)
    have cx := Complex.norm_mul_cos_arg (⟨x, y⟩ : ℂ)
    have sy := Complex.norm_mul_sin_arg (⟨x, y⟩ : ℂ)
    generalize ‖(⟨x, y⟩ : ℂ)‖ = r at *
    have lo : 1 - 9 / 2 ^ 24 ≤ r := by
      by_contra hc
      have hc' := not_le.1 hc
      have : r * r < (1 - 9 / 2 ^ 24) * (1 - 9 / 2 ^ 24) := mul_lt_mul'' hc' hc' n0 n0
      have := (abs_le.1 h).1
      have k : (1 - 9 / 2 ^ 24 : ℝ) * (1 - 9 / 2 ^ 24) ≤ 1 - 1 / 2 ^ 20 := by norm_num
      linarith
    have hi : r ≤ 1 + 9 / 2 ^ 24 := by
      by_contra hc
      have hc' := not_le.1 hc
      have : (1 + 9 / 2 ^ 24) * (1 + 9 / 2 ^ 24) < r * r := mul_lt_mul'' hc' hc' (by norm_num) (by norm_num)
      have := (abs_le.1 h).2
      have k : (1 : ℝ) + 1 / 2 ^ 20 ≤ (1 + 9 / 2 ^ 24) * (1 + 9 / 2 ^ 24) := by norm_num
      linarith
    have dr : |1 - r| ≤ 9 / 2 ^ 24 := by rw [abs_le]; constructor <;> linarith
    have g : ∀ c z : ℝ, |c| ≤ 1 → r * c = z → |c - z| ≤ 9 / 2 ^ 24 := by
      intro c z hc e
      rw [← e, show c - r * c = c * (1 - r) by ring]
      exact mul_bound hc dr
    exact ⟨g _ _ (Real.abs_cos_le_one _) cx, g _ _ (Real.abs_sin_le_one _) sy⟩
  have ang : ∀ z : ℂ, |angleOf (stepsOf (Complex.arg z)) - Complex.arg z| ≤ 1 / 2 ^ 26 := by
    intro z
    have := Complex.neg_pi_lt_arg z
    have := Complex.arg_le_pi z
    have := Real.pi_le_four
    exact angleOf_stepsOf (by linarith) (by linarith)
  have k : (1 : ℝ) / 2 ^ 23 + (1 / 2 ^ 26 + 9 / 2 ^ 24) ≤ 1 / 2 ^ 20 := by norm_num
  refine ⟨t, ⟨?_, ?_⟩⟩
  · intro x y _ _ h
    refine ⟨ff _ _, ?_⟩
    have h1 := fe (Real.cos (angleOf (stepsOf (Complex.arg ⟨x.re, y.re⟩)))) (Real.abs_cos_le_one _)
    have h2 := Real.abs_cos_sub_cos_le (angleOf (stepsOf (Complex.arg ⟨x.re, y.re⟩))) (Complex.arg ⟨x.re, y.re⟩)
    have h3 := ang ⟨x.re, y.re⟩
    have h4 := (near x.re y.re h).1
    have t1 := abs_sub_le (t.cos (t.atan2 y x)).re (Real.cos (angleOf (stepsOf (Complex.arg ⟨x.re, y.re⟩)))) x.re
    have t2 := abs_sub_le (Real.cos (angleOf (stepsOf (Complex.arg ⟨x.re, y.re⟩)))) (Real.cos (Complex.arg ⟨x.re, y.re⟩)) x.re
    have h1' : |(t.cos (t.atan2 y x)).re - Real.cos (angleOf (stepsOf (Complex.arg ⟨x.re, y.re⟩)))| ≤ 1 / 2 ^ 23 := h1
    linarith
  · intro x y _ _ h
    refine ⟨ff _ _, ?_⟩
    have h1 := fe (Real.sin (angleOf (stepsOf (Complex.arg ⟨x.re, y.re⟩)))) (Real.abs_sin_le_one _)
    have h2 := Real.abs_sin_sub_sin_le (angleOf (stepsOf (Complex.arg ⟨x.re, y.re⟩))) (Complex.arg ⟨x.re, y.re⟩)
    have h3 := ang ⟨x.re, y.re⟩
    have h4 := (near x.re y.re h).2
    have t1 := abs_sub_le (t.sin (t.atan2 y x)).re (Real.sin (angleOf (stepsOf (Complex.arg ⟨x.re, y.re⟩)))) y.re
    have t2 := abs_sub_le (Real.sin (angleOf (stepsOf (Complex.arg ⟨x.re, y.re⟩)))) (Real.sin (Complex.arg ⟨x.re, y.re⟩)) y.re
    have h1' : |(t.sin (t.atan2 y x)).re - Real.sin (angleOf (stepsOf (Complex.arg ⟨x.re, y.re⟩)))| ≤ 1 / 2 ^ 23 := h1
    linarith

end Hull
end Verif
