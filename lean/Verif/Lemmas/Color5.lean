import Verif.Lemmas.Color4
/-! # Colours: the share of a hue in each channel -/

set_option exponentiation.threshold 2000

namespace Verif
namespace ColorSpec

/-- The shares, as functions of six times the hue. -/
def red6 (g : ℚ) : ℚ := unitRange (|g - 3| - 1)
def green6 (g : ℚ) : ℚ := unitRange (2 - |g - 2|)
def blue6 (g : ℚ) : ℚ := unitRange (2 - |g - 4|)

theorem unitRange_lip (a b : ℚ) : |unitRange a - unitRange b| ≤ |a - b| := by
  unfold unitRange
  rw [abs_le]
  have h1 := le_abs_self (a - b)
  have h2 := neg_abs_le (a - b)
  simp only [max_def, min_def]
  constructor <;> split_ifs <;> linarith

theorem unitRange_range (a : ℚ) : 0 ≤ unitRange a ∧ unitRange a ≤ 1 := by
  unfold unitRange
  simp only [max_def, min_def]
  constructor <;> split_ifs <;> linarith

theorem lip_abs (a b c : ℚ) : abs (|a - c| - |b - c|) ≤ |a - b| := by
  have := abs_abs_sub_abs_le_abs_sub (a - c) (b - c)
  rwa [sub_sub_sub_cancel_right] at this

theorem red6_lip (a b : ℚ) : |red6 a - red6 b| ≤ |a - b| := by
  refine le_trans (unitRange_lip _ _) ?_
  rw [sub_sub_sub_cancel_right]; exact lip_abs a b 3
theorem green6_lip (a b : ℚ) : |green6 a - green6 b| ≤ |a - b| := by
  refine le_trans (unitRange_lip _ _) ?_
  rw [sub_sub_sub_cancel_left, abs_sub_comm]; exact lip_abs a b 2
theorem blue6_lip (a b : ℚ) : |blue6 a - blue6 b| ≤ |a - b| := by
  refine le_trans (unitRange_lip _ _) ?_
  rw [sub_sub_sub_cancel_left, abs_sub_comm]; exact lip_abs a b 4

/-- The zigzag in each sextant. -/
theorem sextant {g : ℚ} {k : Nat} (h0 : 0 ≤ g) (h6 : g ≤ 6 + 1 / 2 ^ 21) (h1 : 2 * (k : ℚ) ≤ g) (h2 : g < 2 * k + 2) :
    (g < 1 → red6 g = 1 ∧ green6 g = 1 - |g - 2 * k - 1| ∧ blue6 g = 0) ∧
    (1 ≤ g → g < 2 → red6 g = 1 - |g - 2 * k - 1| ∧ green6 g = 1 ∧ blue6 g = 0) ∧
    (2 ≤ g → g < 3 → red6 g = 0 ∧ green6 g = 1 ∧ blue6 g = 1 - |g - 2 * k - 1|) ∧
    (3 ≤ g → g < 4 → red6 g = 0 ∧ green6 g = 1 - |g - 2 * k - 1| ∧ blue6 g = 1) ∧
    (4 ≤ g → g < 5 → red6 g = 1 - |g - 2 * k - 1| ∧ green6 g = 0 ∧ blue6 g = 1) ∧
    (5 ≤ g → red6 g = 1 ∧ green6 g = 0 ∧ |blue6 g - (1 - |g - 2 * k - 1|)| ≤ 1 / 2 ^ 21) := by
  have hk : k = 0 ∨ k = 1 ∨ k = 2 ∨ k = 3 := by
    have h7 : g ≤ 7 := le_trans h6 (by norm_num)
    have : (k : ℚ) < 4 := by linarith
    have : k < 4 := by exact_mod_cast this
    omega
  have key : (1 - |g - 2 * k - 1| : ℚ) = if g < 1 then g else if g < 2 then 2 - g else if g < 3 then g - 2 else if g < 4 then 4 - g else if g < 5 then g - 4 else
      if g < 6 then 6 - g else g - 6 := by
    rcases hk with rfl | rfl | rfl | rfl <;> push_cast at h1 h2 ⊢ <;>
      (rcases abs_cases (g - 2 * _ - 1) with ⟨e, h⟩ | ⟨e, h⟩ <;> rw [e] <;> split_ifs <;> linarith)
  rw [key]
  have cr : red6 g = if g < 1 then 1 else if g < 2 then 2 - g else if g < 4 then 0 else if g < 5 then g - 4 else 1 := by
    unfold red6 unitRange
    rcases abs_cases (g - 3) with ⟨e, h⟩ | ⟨e, h⟩ <;> rw [e] <;> simp only [max_def, min_def] <;> split_ifs <;> linarith
  have cg : green6 g = if g < 1 then g else if g < 3 then 1 else if g < 4 then 4 - g else 0 := by
    unfold green6 unitRange
    rcases abs_cases (g - 2) with ⟨e, h⟩ | ⟨e, h⟩ <;> rw [e] <;> simp only [max_def, min_def] <;> split_ifs <;> linarith
  have cb : blue6 g = if g < 2 then 0 else if g < 3 then g - 2 else if g < 5 then 1 else if g < 6 then 6 - g else 0 := by
    unfold blue6 unitRange
    rcases abs_cases (g - 4) with ⟨e, h⟩ | ⟨e, h⟩ <;> rw [e] <;> simp only [max_def, min_def] <;> split_ifs <;> linarith
  rw [cr, cg, cb]
  refine ⟨?_, ?_, ?_, ?_, ?_, ?_⟩
  · intro a; simp only [a, if_true, if_pos (show g < 2 by linarith)]; simp
  · intro a b; simp only [b, if_neg (show ¬ g < 1 by linarith), if_true, if_pos (show g < 3 by linarith)]; simp
  · intro a b; simp only [b, if_neg (show ¬ g < 1 by linarith), if_neg (show ¬ g < 2 by linarith), if_true, if_pos (show g < 4 by linarith)]; simp
  · intro a b; simp only [b, if_neg (show ¬ g < 1 by linarith), if_neg (show ¬ g < 2 by linarith), if_neg (show ¬ g < 3 by linarith), if_true, if_pos (show g < 5 by linarith)]; simp
  · intro a b; simp only [b, if_neg (show ¬ g < 1 by linarith), if_neg (show ¬ g < 2 by linarith), if_neg (show ¬ g < 3 by linarith), if_neg (show ¬ g < 4 by linarith), if_true]; simp
  · intro a
    simp only [if_neg (show ¬ g < 1 by linarith), if_neg (show ¬ g < 2 by linarith), if_neg (show ¬ g < 3 by linarith), if_neg (show ¬ g < 4 by linarith), if_neg (show ¬ g < 5 by linarith)]
    refine ⟨trivial, trivial, ?_⟩
    split_ifs
    · rw [sub_self, abs_zero]; norm_num
    · rw [abs_le]; constructor <;> linarith

end ColorSpec

namespace F32
open ColorSpec

theorem ofMag_real {x : F32} (h : 0 ≤ x.real) : (Dbl.ofMag x.magBits : ℚ) / Dbl.one = x.real := by
  have h1 := real_nonneg.2 h
  have e : ((magVal x.magBits : Nat) : ℚ) = x.val := by
    rw [← natAbs_val, Nat.cast_natAbs, abs_of_nonneg h1]
  unfold Dbl.ofMag
  rw [Dbl.one_split, Nat.cast_mul, e, real_eq]
  have : ((2 ^ 925 : Nat) : ℚ) ≠ 0 := ne_of_gt (Nat.cast_pos.2 (Nat.two_pow_pos _))
  rw [mul_div_mul_right _ _ this]

/-- Product of a `float` and the zigzag. -/
theorem tent_mul {c g : F32} (c0 : 0 ≤ c.real) (c1 : c.real ≤ 1) (g0 : 0 ≤ g.real) :
    ∃ x : F32, x = pack false (roundMag (Dbl.near (Dbl.ofMag c.magBits * Dbl.tent (Dbl.ofMag g.magBits)) Dbl.one) (2 ^ 925)) ∧ F32.finite x = true ∧
      ∃ k : Nat, 2 * (k : ℚ) ≤ g.real ∧ g.real < 2 * k + 2 ∧ |x.real - c.real * (1 - |g.real - 2 * k - 1|)| ≤ 1 / 2 ^ 22 := by
  obtain ⟨k, k1, k2, k3⟩ := Dbl.tent_close (Dbl.ofMag g.magBits)
  rw [ofMag_real g0] at k1 k2 k3
  have ho := Dbl.one_pos
  have hb := Dbl.one_big
  have hn := Dbl.near_err (p := Dbl.ofMag c.magBits * Dbl.tent (Dbl.ofMag g.magBits)) (q := Dbl.one) (Nat.two_pow_pos _)
  rw [Nat.cast_mul] at hn
  have e0 := ofMag_real c0
  generalize Dbl.near (Dbl.ofMag c.magBits * Dbl.tent (Dbl.ofMag g.magBits)) Dbl.one = N at *
  have e1 : ((Dbl.ofMag c.magBits : ℚ) * Dbl.tent (Dbl.ofMag g.magBits)) / Dbl.one = c.real * ((Dbl.tent (Dbl.ofMag g.magBits) : ℚ) / Dbl.one) * Dbl.one := by
    rw [← e0]; field_simp
  rw [e1] at hn
  generalize hτ : (Dbl.tent (Dbl.ofMag g.magBits) : ℚ) / Dbl.one = τ at *
  have hT : 0 ≤ 1 - |g.real - 2 * k - 1| ∧ 1 - |g.real - 2 * k - 1| ≤ 1 := by
    rcases abs_cases (g.real - 2 * k - 1) with ⟨e, h⟩ | ⟨e, h⟩ <;> rw [e] <;> constructor <;> linarith
  generalize hTe : 1 - |g.real - 2 * k - 1| = T at k3 hT
  have hτ0 : 0 ≤ τ := by rw [← hτ]; exact div_nonneg (Nat.cast_nonneg _) (le_of_lt ho)
  have hτ1 : τ ≤ 1 + 1 / 2 ^ 48 := by have := (abs_le.1 k3).2; linarith
  have hct : 0 ≤ c.real * τ := mul_nonneg c0 hτ0
  have hct1 : c.real * τ ≤ 1 + 1 / 2 ^ 48 := by nlinarith
  have hcT : |c.real * τ - c.real * T| ≤ 1 / 2 ^ 48 := by
    rw [← mul_sub, abs_mul, abs_of_nonneg c0]; nlinarith [abs_nonneg (τ - T)]
  have hN : |(N : ℚ) / Dbl.one - c.real * τ| ≤ 1 / 2 ^ 50 := by
    have e2 : (N : ℚ) / Dbl.one - c.real * τ = ((N : ℚ) - c.real * τ * Dbl.one) / Dbl.one := by field_simp
    rw [e2, abs_div, abs_of_pos ho, div_le_iff₀ ho]
    refine le_trans hn ?_
    have : c.real * τ * Dbl.one ≤ 2 * Dbl.one := mul_le_mul_of_nonneg_right (by norm_num at *; linarith) (le_of_lt ho)
    generalize c.real * τ * Dbl.one = M at *
    generalize (Dbl.one : ℚ) = O at *
    norm_num at hb ⊢
    linarith
  have e3 : (N : ℚ) / (2 ^ 925 : Nat) / unit = (N : ℚ) / Dbl.one := by
    rw [Dbl.one_split, div_div, _root_.mul_comm]
  have hNu : (N : ℚ) / Dbl.one ≤ 2 := by have := (abs_le.1 hN).2; norm_num at *; linarith
  obtain ⟨r1, r2⟩ := roundMag_real (p := N) (q := 2 ^ 925) (Nat.two_pow_pos _) (by rw [e3]; norm_num at *; linarith)
  rw [e3] at r2
  refine ⟨_, rfl, ?_, k, k1, k2, ?_⟩
  · rw [finite_mag, magBits_pack (roundMag_lt _ _)]; exact r1
  · have e4 : (pack false (roundMag N (2 ^ 925))).real = (magVal (roundMag N (2 ^ 925)) : ℚ) / unit := by
      rw [real_eq, val_pack (roundMag_lt _ _)]; simp
    rw [e4, hTe]
    generalize (magVal (roundMag N (2 ^ 925)) : ℚ) / unit = X at *
    generalize (N : ℚ) / Dbl.one = Y at *
    clear hn hb ho e1 hτ e0 e4 e3 r1 hTe
    rw [abs_le] at *
    constructor <;> norm_num at * <;> linarith

end F32
end Verif
