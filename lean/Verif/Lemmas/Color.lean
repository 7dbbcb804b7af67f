import Verif.Model.Color
import Verif.Lemmas.Box5
/-! # Colours: arithmetic facts -/

namespace Verif
namespace F32

/-- The value 1, in units. -/
def unit : Nat := 2 ^ 149
theorem unit_eq : (2 : Nat) ^ 149 = unit := rfl
theorem unit_int : (2 : Int) ^ 149 = (unit : Int) := by unfold unit; rw [Int.natCast_pow]; rfl
theorem unit_big : 2 ^ 40 ≤ unit := Nat.pow_le_pow_right (by decide) (by decide)
theorem unit_pos : 0 < unit := Nat.two_pow_pos _
theorem fl_unit (k : Int) (hk : k.natAbs < 2 ^ 24) : fl (unit * k) = unit * k := by
  rw [← unit_int]; exact fl_cells (by decide) k hk
theorem fl_unit_pow (n : Nat) (hn : n ≤ 100) : fl ((2 : Int) ^ n * unit) = 2 ^ n * unit := by
  have h := fl_cells (g := n + 149) (by omega) 1 (by decide)
  rwa [Int.mul_one, Int.pow_add, unit_int] at h
theorem unit_top (n : Nat) (hn : n ≤ 100) : 2 ^ n * unit < top := by
  rw [← magVal_inf]
  have h : ((2 ^ n * unit : Nat) : Int) = (2 : Int) ^ n * unit := by rw [Int.natCast_mul, Int.natCast_pow]; rfl
  have h1 : magVal (roundMag (2 ^ n * unit) 1) = 2 ^ n * unit := by
    have := fl_ofNat (2 ^ n * unit)
    rw [h, fl_unit_pow n hn, ← h] at this
    exact (Int.ofNat_inj.1 this).symm
  have h2 : 2 ^ n * unit ≤ 2 ^ 100 * unit := Nat.mul_le_mul_right _ (Nat.pow_le_pow_right (by decide) hn)
  refine Nat.lt_of_le_of_lt h2 ?_
  rw [magVal_inf]
  unfold top unit
  rw [← Nat.pow_add]
  exact Nat.pow_lt_pow_right (by decide) (by decide)

theorem one_unit : one.val = unit := by rw [one_val, unit_int]
theorem one_finite : F32.finite one = true := by decide +kernel
theorem two_unit : two.val = 2 * unit := by
  rw [show two.val = 2 * 2 ^ 149 by decide +kernel, unit_int]
theorem two_finite : F32.finite two = true := by decide +kernel
theorem c255_unit : c255.val = 255 * unit := by
  rw [show c255.val = 255 * 2 ^ 149 by decide +kernel, unit_int]
theorem c255_finite : F32.finite c255 = true := by decide +kernel
theorem zero'_finite : F32.finite zero = true := by decide +kernel
theorem zero'_notNan : isNan zero = false := by decide +kernel
theorem zero_unit : zero.val = 0 := zero_val
theorem half_unit : 2 * ofHalf.val = unit := by
  rw [show 2 * ofHalf.val = 2 ^ 149 by decide +kernel, unit_int]
theorem half_is_finite : F32.finite ofHalf = true := by decide +kernel

theorem fl_le_pow {n : Int} {k : Nat} (hk : k ≤ 100) (h : n.natAbs ≤ 2 ^ k * unit) : (fl n).natAbs ≤ 2 ^ k * unit := by
  have h0 : ((2 ^ k * unit : Nat) : Int) = (2 : Int) ^ k * unit := by rw [Int.natCast_mul, Int.natCast_pow]; rfl
  have h1 : fl n ≤ 2 ^ k * unit := by rw [← fl_unit_pow k hk]; exact fl_mono (by rw [← h0]; omega)
  have h2 : -((2 : Int) ^ k * unit) ≤ fl n := by
    rw [← fl_unit_pow k hk, ← fl_neg]; exact fl_mono (by rw [← h0]; omega)
  rw [← h0] at h1 h2
  omega

/-- Sums of ordinary numbers. -/
theorem add_close' {x y : F32} (k : Nat) (hk : k ≤ 100) (hx : F32.finite x = true) (hy : F32.finite y = true) (h : (x.val + y.val).natAbs ≤ 2 ^ k * unit) :
    F32.finite (x.add y) = true ∧ (x.add y).val = fl (x.val + y.val) ∧ 2 ^ 24 * ((x.add y).val - (x.val + y.val)).natAbs ≤ (x.val + y.val).natAbs := by
  obtain ⟨h1, h2⟩ := add_val hx hy
  have h3 : (fl (x.val + y.val)).natAbs < top := Nat.lt_of_le_of_lt (fl_le_pow hk h) (unit_top k hk)
  exact ⟨(finite_iff_val h1).2 (by rw [h2]; exact h3), h2, by rw [h2]; exact fl_err h3⟩

theorem add_close {x y : F32} (hx : F32.finite x = true) (hy : F32.finite y = true) (h : (x.val + y.val).natAbs ≤ 2 ^ 20 * unit) :
    F32.finite (x.add y) = true ∧ (x.add y).val = fl (x.val + y.val) ∧ 2 ^ 24 * ((x.add y).val - (x.val + y.val)).natAbs ≤ (x.val + y.val).natAbs :=
  add_close' 20 (by decide) hx hy h

theorem sub_close {x y : F32} (hx : F32.finite x = true) (hy : F32.finite y = true) (h : (x.val - y.val).natAbs ≤ 2 ^ 20 * unit) :
    F32.finite (x.sub y) = true ∧ (x.sub y).val = fl (x.val - y.val) ∧ 2 ^ 24 * ((x.sub y).val - (x.val - y.val)).natAbs ≤ (x.val - y.val).natAbs := by
  have := add_close hx (neg_finite hy) (by rw [neg_val]; exact h)
  rw [neg_val] at this
  exact this

theorem val_eq_mag (x : F32) : x.val = if x.neg? then -(x.val.natAbs : Int) else x.val.natAbs := by
  rw [natAbs_val]; rfl

/-- The magnitude of a product. -/
theorem mul_natAbs {x y : F32} (hx : F32.finite x = true) (hy : F32.finite y = true) :
    (x.mul y).isNan = false ∧ (x.mul y).val = if x.neg? != y.neg? then -(magVal (roundMag (x.val.natAbs * y.val.natAbs) unit) : Int) else magVal (roundMag (x.val.natAbs * y.val.natAbs) unit) := by
  have e : x.mul y = pack (x.neg? != y.neg?) (roundMag (x.val.natAbs * y.val.natAbs) unit) := by
    unfold mul
    rw [finite_notNan hx, finite_notNan hy, finite_notInf hx, finite_notInf hy, natAbs_val, natAbs_val]
    rfl
  rw [e]
  exact ⟨pack_notNan (roundMag_le _ _), val_pack (roundMag_lt _ _)⟩

theorem mul_signs (x y : F32) : x.val * y.val = if x.neg? != y.neg? then -((x.val.natAbs * y.val.natAbs : Nat) : Int) else ((x.val.natAbs * y.val.natAbs : Nat) : Int) := by
  rw [val_eq_mag x, val_eq_mag y]
  cases x.neg? <;> cases y.neg? <;> simp [Int.natAbs_neg, Int.natCast_mul, Int.neg_mul, Int.mul_neg]

/-- Products of ordinary numbers. -/
theorem mul_close' {x y : F32} (k : Nat) (hk : k ≤ 100) (hx : F32.finite x = true) (hy : F32.finite y = true) (h : x.val.natAbs * y.val.natAbs ≤ 2 ^ k * unit * unit) :
    F32.finite (x.mul y) = true ∧ 2 ^ 24 * ((x.mul y).val * unit - x.val * y.val).natAbs ≤ (x.val * y.val).natAbs + 2 ^ 23 * unit := by
  obtain ⟨h1, h2⟩ := mul_natAbs hx hy
  have hm : magVal (roundMag (x.val.natAbs * y.val.natAbs) unit) ≤ 2 ^ k * unit := by
    have := magVal_le (roundMag_mono (p' := 2 ^ k * unit) (q' := 1) unit_pos (by decide) (by rw [Nat.mul_one]; exact h))
    refine Nat.le_trans this ?_
    have h3 := fl_ofNat (2 ^ k * unit)
    have h0 : ((2 ^ k * unit : Nat) : Int) = (2 : Int) ^ k * unit := by rw [Int.natCast_mul, Int.natCast_pow]; rfl
    rw [h0, fl_unit_pow k hk, ← h0] at h3
    exact Nat.le_of_eq (Int.ofNat_inj.1 h3).symm
  have hlt := Nat.lt_of_le_of_lt hm (unit_top k hk)
  have hr : roundMag (x.val.natAbs * y.val.natAbs) unit < 255 * 2 ^ 23 := by rw [← magVal_inf, magVal_lt_iff] at hlt; exact hlt
  have he := roundMag_err unit_pos hr
  have hs := mul_signs x y
  refine ⟨(finite_iff_val h1).2 ?_, ?_⟩
  · rw [h2]
    generalize magVal (roundMag (x.val.natAbs * y.val.natAbs) unit) = v at *
    clear he hs h2
    split <;> omega
  · rw [hs, h2]
    generalize hp : x.val.natAbs * y.val.natAbs = p at *
    generalize hv : magVal (roundMag p unit) = v at *
    have e : ((v * unit : Nat) : Int) = (v : Int) * unit := Int.natCast_mul _ _
    generalize hw : v * unit = w at *
    clear hp hs h2 hm h hv
    split
    · rw [Int.neg_mul, ← e, Int.natAbs_neg]; omega
    · rw [← e]; omega

theorem mul_close {x y : F32} (hx : F32.finite x = true) (hy : F32.finite y = true) (h : x.val.natAbs * y.val.natAbs ≤ 2 ^ 20 * unit * unit) :
    F32.finite (x.mul y) = true ∧ 2 ^ 24 * ((x.mul y).val * unit - x.val * y.val).natAbs ≤ (x.val * y.val).natAbs + 2 ^ 23 * unit :=
  mul_close' 20 (by decide) hx hy h

/-- A product with a factor between 0 and 1 is not larger. -/
theorem mul_le_left {x y : F32} (hx : F32.finite x = true) (hy : F32.finite y = true) (px : 0 ≤ x.val) (py : 0 ≤ y.val) (hle : y.val ≤ unit) :
    F32.finite (x.mul y) = true ∧ 0 ≤ (x.mul y).val ∧ (x.mul y).val ≤ x.val := by
  obtain ⟨h1, h2⟩ := mul_natAbs hx hy
  have hm : magVal (roundMag (x.val.natAbs * y.val.natAbs) unit) ≤ x.val.natAbs := by
    have h3 := magVal_le (roundMag_mono (p := x.val.natAbs * y.val.natAbs) (p' := x.val.natAbs) (q' := 1) unit_pos (by decide) (by
      rw [Nat.mul_one]; exact Nat.mul_le_mul_left _ (by omega)))
    refine Nat.le_trans h3 ?_
    rw [natAbs_val, roundMag_magVal (by have := (finite_mag x).1 hx; omega)]
    exact Nat.le_refl _
  have key : 0 ≤ (x.mul y).val ∧ (x.mul y).val ≤ x.val := by
    rw [h2]
    split
    · rename_i hs
      have : x.val = 0 ∨ y.val = 0 := by
        have e1 := val_eq_mag x
        have e2 := val_eq_mag y
        cases hnx : x.neg? <;> cases hny : y.neg? <;> rw [hnx] at e1 hs <;> rw [hny] at e2 hs <;> simp at hs e1 e2 <;> omega
      have h0 : x.val.natAbs * y.val.natAbs = 0 := by
        rcases this with h | h <;> rw [h] <;> simp
      have : magVal (roundMag 0 unit) = 0 := by decide +kernel
      rw [h0, this]; omega
    · omega
  refine ⟨(finite_iff_val h1).2 ?_, key⟩
  have := (val_finite hx).2
  omega

/-- Truncation. -/
theorem toUnsigned_ok {x : F32} {bits : Nat} (hx : F32.finite x = true) (h1 : -(unit : Int) < x.val) (h2 : x.val < 2 ^ bits * unit) :
    x.toUnsigned bits = .ok (x.val / unit).toNat := by
  unfold toUnsigned
  rw [finite_notNan hx, finite_notInf hx, unit_int]
  simp only [Bool.or_self, Bool.false_eq_true, if_false]
  rw [if_neg (by omega), if_neg (by omega)]

theorem toU8_ok {x : F32} (hx : F32.finite x = true) (h1 : -(unit : Int) < x.val) (h2 : x.val < 256 * unit) :
    ∃ c : UInt8, x.toU8 = .ok c ∧ c.toNat = (x.val / unit).toNat := by
  have hlt : (x.val / unit).toNat < 256 := by
    have : x.val / unit < 256 := Int.ediv_lt_of_lt_mul (by have := unit_pos; omega) h2
    omega
  refine ⟨UInt8.ofNat (x.val / unit).toNat, ?_, ?_⟩
  · unfold toU8; rw [toUnsigned_ok (bits := 8) hx h1 (by rw [show (2 : Int) ^ 8 = 256 from rfl]; exact h2)]; rfl
  · rw [UInt8.toNat_ofNat']; exact Nat.mod_eq_of_lt hlt

theorem toU8_nan {x : F32} (h : x.isNan = true) : x.toU8 = .ub := by unfold toU8 toUnsigned; simp [h]

/-- The value of a number limited to `[0, 1]`, in units. -/
def limited (x : F32) : Int := max 0 (min x.val unit)

theorem clamp01_spec {x : F32} (h : x.isNan = false) : F32.finite x.clamp01 = true ∧ x.clamp01.val = x.limited ∧ 0 ≤ x.limited ∧ x.limited ≤ unit := by
  have h1 := unit_pos
  have hl : 0 ≤ x.limited ∧ x.limited ≤ unit := by unfold limited; omega
  refine ⟨?_, ?_, hl⟩ <;> unfold clamp01 clamp
  · split
    · exact zero'_finite
    · rename_i ha
      split
      · exact one_finite
      · rename_i hb
        rw [lt_iff h zero'_notNan, zero_unit] at ha
        rw [lt_iff (finite_notNan one_finite) h, one_unit] at hb
        rw [finite_iff_val h]
        have := unit_top 0 (by decide)
        omega
  · split
    · rename_i ha
      rw [lt_iff h zero'_notNan, zero_unit] at ha
      unfold limited; rw [zero_unit]; omega
    · rename_i ha
      rw [lt_iff h zero'_notNan, zero_unit] at ha
      split
      · rename_i hb
        rw [lt_iff (finite_notNan one_finite) h, one_unit] at hb
        unfold limited; rw [one_unit]; omega
      · rename_i hb
        rw [lt_iff (finite_notNan one_finite) h, one_unit] at hb
        unfold limited; omega

theorem clamp01_nan {x : F32} (h : x.isNan = true) : x.clamp01.isNan = true := by
  unfold clamp01 clamp lt; simp [h]

theorem add_nan_left {x : F32} (y : F32) (h : x.isNan = true) : (x.add y).isNan = true := by unfold add; simp [h, nan_isNan]
theorem add_nan_right (x : F32) {y : F32} (h : y.isNan = true) : (x.add y).isNan = true := by unfold add; simp [h, nan_isNan]
theorem neg_nan {x : F32} (h : x.isNan = true) : x.neg.isNan = true := by
  rw [isNan_iff] at *; rw [neg_magBits]; exact h
theorem sub_nan_right (x : F32) {y : F32} (h : y.isNan = true) : (x.sub y).isNan = true := add_nan_right x (neg_nan h)
theorem sub_nan_left {x : F32} (y : F32) (h : x.isNan = true) : (x.sub y).isNan = true := add_nan_left _ h
theorem mul_nan_left {x : F32} (y : F32) (h : x.isNan = true) : (x.mul y).isNan = true := by unfold mul; simp [h, nan_isNan]
theorem mul_nan_right (x : F32) {y : F32} (h : y.isNan = true) : (x.mul y).isNan = true := by unfold mul; simp [h, nan_isNan]
theorem div_nan_left {x : F32} (y : F32) (h : x.isNan = true) : (x.div y).isNan = true := by unfold div; simp [h, nan_isNan]
theorem abs_nan {x : F32} (h : x.isNan = true) : x.abs.isNan = true := by
  rw [isNan_iff] at *; rw [abs_magBits]; exact h

/-- Integers become floats. -/
theorem ofNat_val (n : Nat) (h : n * unit < 2 ^ 100 * unit) : F32.finite (ofNat n) = true ∧ (ofNat n).val = fl ((n * unit : Nat) : Int) ∧ 0 ≤ (ofNat n).val := by
  have h1 : (ofNat n).isNan = false := pack_notNan (roundMag_le _ _)
  have h2 : (ofNat n).val = fl ((n * unit : Nat) : Int) := by rw [fl_ofNat]; exact val_pack (roundMag_lt _ _)
  have h3 := fl_nonneg (n := ((n * unit : Nat) : Int)) (by omega)
  refine ⟨(finite_iff_val h1).2 ?_, h2, by rw [h2]; exact h3⟩
  rw [h2]
  exact Nat.lt_of_le_of_lt (fl_le_pow (k := 100) (by decide) (by rw [Int.natAbs_natCast]; exact Nat.le_of_lt h)) (unit_top 100 (by decide))

theorem ofNat_small (n : Nat) (h : n < 2 ^ 24) : F32.finite (ofNat n) = true ∧ (ofNat n).val = n * unit := by
  obtain ⟨h1, h2, _⟩ := ofNat_val n (Nat.mul_lt_mul_of_pos_right (Nat.lt_trans h (by decide)) unit_pos)
  refine ⟨h1, ?_⟩
  rw [h2, Int.natCast_mul, Int.mul_comm, fl_unit _ (by omega)]

end F32
end Verif
