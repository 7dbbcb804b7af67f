import Mathlib.Tactic.Linarith
import Verif.Lemmas.Color4
import Verif.Spec.PyMesh
/-! # Colour entries of the arrays -/

namespace Verif
namespace F64

set_option exponentiation.threshold 3000

theorem share_table : ∀ n < 256, (share (UInt8.ofNat n)).finite = true ∧ (share (UInt8.ofNat n)).negative = false ∧
    (share (UInt8.ofNat n)).magVal = Dbl.near (n * 2 ^ 1074) 255 ∧ (share (UInt8.ofNat n)).toByte = .ok (UInt8.ofNat n) := by decide +kernel

theorem share_spec (c : UInt8) : (share c).finite = true ∧ (share c).negative = false ∧
    (share c).magVal = Dbl.near (c.toNat * 2 ^ 1074) 255 ∧ (share c).toByte = .ok c := by
  have := share_table c.toNat (by have := c.toNat_lt; omega)
  rwa [UInt8.ofNat_toNat] at this

theorem unitD_pos : (0 : ℚ) < ((2 ^ 1074 : Nat) : ℚ) := by exact_mod_cast Nat.two_pow_pos 1074

/-- Dividing by the unit. -/
theorem near_real {p q : Nat} (hq : 0 < q) :
    |(Dbl.near p q : ℚ) / (2 ^ 1074 : Nat) - (p : ℚ) / q / (2 ^ 1074 : Nat)| ≤ 1 / 2 ^ 53 * ((p : ℚ) / q / (2 ^ 1074 : Nat)) + 1 / 2 ^ 60 := by
  have e := Dbl.near_err (p := p) (q := q) hq
  have hu := unitD_pos
  have hbig : (2 : ℚ) ^ 60 ≤ ((2 ^ 1074 : Nat) : ℚ) := by exact_mod_cast Nat.pow_le_pow_right (by decide) (by decide)
  generalize ((2 ^ 1074 : Nat) : ℚ) = U at *
  generalize (Dbl.near p q : ℚ) = N at *
  generalize (p : ℚ) / q = r at *
  rw [← sub_div, abs_div, abs_of_pos hu, div_le_iff₀ hu]
  have h1 : (1 / 2 ^ 53 * (r / U) + 1 / 2 ^ 60) * U = 1 / 2 ^ 53 * r + U / 2 ^ 60 := by
    field_simp
  rw [h1]
  have h2 : 1 ≤ U / 2 ^ 60 := by rw [le_div_iff₀ (by positivity)]; linarith
  linarith

theorem share_real (c : UInt8) : |(share c).real - (c.toNat : ℚ) / 255| ≤ 1 / 2 ^ 52 := by
  obtain ⟨-, h1, h2, -⟩ := share_spec c
  unfold real
  rw [h1, h2]
  have hc : (c.toNat : ℚ) ≤ 255 := by exact_mod_cast (by have := c.toNat_lt; omega : c.toNat ≤ 255)
  have h0 : (0 : ℚ) ≤ c.toNat := Nat.cast_nonneg _
  have e := near_real (p := c.toNat * 2 ^ 1074) (q := 255) (by decide)
  have hu := unitD_pos
  have h3 : (((c.toNat * 2 ^ 1074 : Nat) : ℚ) / (255 : Nat) / ((2 ^ 1074 : Nat) : ℚ)) = (c.toNat : ℚ) / 255 := by
    rw [Nat.cast_mul]
    generalize ((2 ^ 1074 : Nat) : ℚ) = U at *
    rw [div_div, Nat.cast_ofNat]
    rw [mul_div_mul_right _ _ (ne_of_gt hu)]
  rw [h3] at e
  simp only [Bool.false_eq_true, if_false, one_mul]
  refine le_trans e ?_
  have : (c.toNat : ℚ) / 255 ≤ 1 := by rw [div_le_one (by norm_num)]; exact hc
  have h4 : (1 : ℚ) / 2 ^ 53 * ((c.toNat : ℚ) / 255) ≤ 1 / 2 ^ 53 * 1 := mul_le_mul_of_nonneg_left this (by positivity)
  have h5 : (1 : ℚ) / 2 ^ 53 * 1 + 1 / 2 ^ 60 ≤ 1 / 2 ^ 52 := by norm_num
  linarith

/-- The rounded product. -/
theorem product_real (d : F64) :
    |(Dbl.near (d.magVal * 255) 1 : ℚ) / (2 ^ 1074 : Nat) - 255 * ((d.magVal : ℚ) / (2 ^ 1074 : Nat))| ≤
      1 / 2 ^ 53 * (255 * ((d.magVal : ℚ) / (2 ^ 1074 : Nat))) + 1 / 2 ^ 60 := by
  have e := near_real (p := d.magVal * 255) (q := 1) (by decide)
  have : ((d.magVal * 255 : Nat) : ℚ) / (1 : Nat) / (2 ^ 1074 : Nat) = 255 * ((d.magVal : ℚ) / (2 ^ 1074 : Nat)) := by
    rw [Nat.cast_mul]
    generalize ((2 ^ 1074 : Nat) : ℚ) = U at *
    rw [Nat.cast_one, div_one, Nat.cast_ofNat, mul_comm, mul_div_assoc]
  rwa [this] at e

theorem mag_nonneg (d : F64) : 0 ≤ (d.magVal : ℚ) / (2 ^ 1074 : Nat) := div_nonneg (Nat.cast_nonneg _) (le_of_lt unitD_pos)

/-- A product that fits. -/
theorem toByte_in {d : F64} (hf : d.finite = true) (h0 : 0 ≤ d.real) (h1 : d.real ≤ 1) :
    ∃ c, d.toByte = .ok c ∧ (c.toNat : ℚ) ≤ 255 * d.real + 1 / 2 ^ 40 ∧ 255 * d.real < c.toNat + 1 + 1 / 2 ^ 40 := by
  have e := product_real d
  have hm := mag_nonneg d
  have hu := unitD_pos
  have hvdef : Dbl.one = 2 ^ 1074 := rfl
  unfold real at h0 h1 ⊢
  unfold toByte
  rw [hf]
  simp only [Bool.not_true, Bool.false_eq_true, if_false]
  rw [hvdef]
  generalize hv : Dbl.near (d.magVal * 255) 1 = v at *
  generalize hq : (d.magVal : ℚ) / (2 ^ 1074 : Nat) = q at *
  have hvlt : ∀ k : Nat, (v : ℚ) / (2 ^ 1074 : Nat) < k → v < k * 2 ^ 1074 := by
    intro k hk
    rw [div_lt_iff₀ hu] at hk
    exact_mod_cast hk
  rw [abs_le] at e
  cases hn : d.negative with
  | true =>
    simp only [hn, if_true] at h0 h1 ⊢
    have hq0 : q = 0 := by linarith
    rw [hq0] at e
    have hlt : v < 2 ^ 1074 := by
      have := hvlt 1 (by rw [Nat.cast_one]; have := e.2; norm_num at this ⊢; linarith)
      omega
    rw [if_pos hlt]
    refine ⟨0, rfl, ?_, ?_⟩ <;> rw [hq0] <;> norm_num
  | false =>
    simp only [hn, Bool.false_eq_true, if_false, one_mul] at h0 h1 ⊢
    have hb : (1 : ℚ) / 2 ^ 53 * (255 * q) ≤ 1 / 2 ^ 53 * 255 := mul_le_mul_of_nonneg_left (by linarith) (by positivity)
    have hc : (1 : ℚ) / 2 ^ 53 * 255 + 1 / 2 ^ 60 ≤ 1 / 2 ^ 40 := by norm_num
    have hlt : v < 256 * 2 ^ 1074 := hvlt 256 (by
      rw [Nat.cast_ofNat]; have := e.2
      have : (1 : ℚ) / 2 ^ 40 < 1 := by norm_num
      linarith)
    rw [if_pos hlt]
    refine ⟨_, rfl, ?_, ?_⟩
    · have hd : v / 2 ^ 1074 < 256 := Nat.div_lt_of_lt_mul (by rw [Nat.mul_comm]; exact hlt)
      rw [UInt8.toNat_ofNat', Nat.mod_eq_of_lt hd]
      have : ((v / 2 ^ 1074 : Nat) : ℚ) ≤ (v : ℚ) / (2 ^ 1074 : Nat) := Nat.cast_div_le
      linarith [e.2]
    · have hd : v / 2 ^ 1074 < 256 := Nat.div_lt_of_lt_mul (by rw [Nat.mul_comm]; exact hlt)
      rw [UInt8.toNat_ofNat', Nat.mod_eq_of_lt hd]
      have h5 : v < (v / 2 ^ 1074 + 1) * 2 ^ 1074 := Nat.lt_mul_of_div_lt (Nat.lt_succ_self _) (Nat.two_pow_pos _)
      have h6 : (v : ℚ) / (2 ^ 1074 : Nat) < ((v / 2 ^ 1074 + 1 : Nat) : ℚ) := by
        rw [div_lt_iff₀ hu]; exact_mod_cast h5
      rw [Nat.cast_add, Nat.cast_one] at h6
      linarith [e.1]

/-- A product that does not fit. -/
theorem toByte_out {d : F64} (h : d.finite = false ∨ 1 + 1 / 254 ≤ d.real ∨ d.real ≤ -1 / 254) : d.toByte = .ub := by
  unfold toByte
  cases hf : d.finite with
  | false => rfl
  | true =>
    rw [hf] at h
    simp only [Bool.true_eq_false, false_or] at h
    have e := product_real d
    have hm := mag_nonneg d
    have hu := unitD_pos
    have hvdef : Dbl.one = 2 ^ 1074 := rfl
    unfold real at h
    simp only [Bool.not_true, Bool.false_eq_true, if_false]
    rw [hvdef]
    generalize hv : Dbl.near (d.magVal * 255) 1 = v at *
    generalize hq : (d.magVal : ℚ) / (2 ^ 1074 : Nat) = q at *
    have hvge : ∀ k : Nat, (k : ℚ) ≤ (v : ℚ) / (2 ^ 1074 : Nat) → ¬ v < k * 2 ^ 1074 := by
      intro k hk hlt
      rw [le_div_iff₀ hu] at hk
      have : k * 2 ^ 1074 ≤ v := by exact_mod_cast hk
      omega
    rw [abs_le] at e
    cases hn : d.negative with
    | true =>
      simp only [hn, if_true] at h ⊢
      have hq1 : 1 / 254 ≤ q := by rcases h with h | h <;> linarith
      have := hvge 1 (by
        rw [Nat.cast_one]
        have := e.1
        norm_num at this hq1 ⊢
        linarith)
      rw [Nat.one_mul] at this
      rw [if_neg this]
    | false =>
      simp only [hn, Bool.false_eq_true, if_false, one_mul] at h ⊢
      have hq1 : 1 + 1 / 254 ≤ q := by rcases h with h | h <;> linarith
      have := hvge 256 (by
        rw [Nat.cast_ofNat]
        have := e.1
        norm_num at this hq1 ⊢
        linarith)
      rw [if_neg this]

end F64
end Verif
