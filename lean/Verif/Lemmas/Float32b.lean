import Verif.Lemmas.Float32
import Verif.Lemmas.Ieee
/-! # Values of sums, differences and halves -/

namespace Verif
namespace F32

theorem magBits_lt (x : F32) : x.magBits < 2 ^ 31 := Nat.mod_lt _ (by decide)

theorem isNan_iff (x : F32) : x.isNan = true ↔ 255 * 2 ^ 23 < x.magBits := by
  unfold isNan magBits
  have h1 : ((x >>> 23) &&& 0xFF).toNat = x.toNat / 2 ^ 23 % 2 ^ 8 := by
    rw [UInt32.toNat_and, UInt32.toNat_shiftRight]
    show (x.toNat >>> 23) &&& (2 ^ 8 - 1) = _
    rw [Nat.and_two_pow_sub_one_eq_mod, Nat.shiftRight_eq_div_pow]
  have h2 : (x &&& 0x7FFFFF).toNat = x.toNat % 2 ^ 23 := by
    rw [UInt32.toNat_and]
    show x.toNat &&& (2 ^ 23 - 1) = _
    rw [Nat.and_two_pow_sub_one_eq_mod]
  rw [Bool.and_eq_true, beq_iff_eq, bne_iff_ne, ne_eq, ← UInt32.toNat_inj, ← UInt32.toNat_inj, h1, h2]
  show x.toNat / 2 ^ 23 % 2 ^ 8 = 255 ∧ ¬ x.toNat % 2 ^ 23 = 0 ↔ _
  omega

theorem notNan_iff (x : F32) : x.isNan = false ↔ x.magBits ≤ 255 * 2 ^ 23 := by
  rw [← Bool.not_eq_true, isNan_iff]; omega
theorem isInf_iff (x : F32) : x.isInf = true ↔ x.magBits = 255 * 2 ^ 23 := by simp [isInf]
theorem finite_mag (x : F32) : F32.finite x = true ↔ x.magBits < 255 * 2 ^ 23 := by
  rw [finite_iff]; unfold magBits
  have := x.toNat_lt
  omega
theorem finite_notNan {x : F32} (h : F32.finite x = true) : x.isNan = false := by rw [notNan_iff]; rw [finite_mag] at h; omega
theorem finite_notInf {x : F32} (h : F32.finite x = true) : x.isInf = false := by
  rw [← Bool.not_eq_true, isInf_iff]; rw [finite_mag] at h; omega
theorem finite_of {x : F32} (h1 : x.isNan = false) (h2 : x.isInf = false) : F32.finite x = true := by
  rw [finite_mag]; rw [notNan_iff] at h1; rw [← Bool.not_eq_true, isInf_iff] at h2; omega

theorem pack_toNat {s : Bool} {b : Nat} (h : b < 2 ^ 31) : (pack s b).toNat = if s then 2 ^ 31 + b else b := by
  unfold pack
  rw [UInt32.toNat_ofNat']
  split <;> omega
@[simp] theorem neg?_pack {s : Bool} {b : Nat} (h : b < 2 ^ 31) : (pack s b).neg? = s := by
  unfold neg?; rw [pack_toNat h]; cases s <;> simp <;> omega
@[simp] theorem magBits_pack {s : Bool} {b : Nat} (h : b < 2 ^ 31) : (pack s b).magBits = b := by
  unfold magBits; rw [pack_toNat h]; cases s <;> simp <;> omega
theorem pack_parts (x : F32) : pack x.neg? x.magBits = x := by
  rw [← UInt32.toNat_inj, pack_toNat (magBits_lt x)]
  unfold neg? magBits
  have := x.toNat_lt
  by_cases h : x.toNat ≥ 2 ^ 31
  · simp [h]; omega
  · simp [h]; omega
theorem val_pack {s : Bool} {b : Nat} (h : b < 2 ^ 31) : (pack s b).val = if s then -(magVal b : Int) else magVal b := by
  unfold val; rw [neg?_pack h, magBits_pack h]

/-- A magnitude, from the value. -/
theorem natAbs_val (x : F32) : x.val.natAbs = magVal x.magBits := by unfold val; split <;> simp

/-! ## The rounded value of an integer -/

/-- The value of an exact result after rounding. -/
def fl (n : Int) : Int := if n < 0 then -(magVal (roundMag n.natAbs 1) : Int) else magVal (roundMag n.natAbs 1)

theorem roundMag_zero : roundMag 0 1 = 0 := by decide +kernel
@[simp] theorem fl_zero : fl 0 = 0 := by unfold fl; simp [roundMag_zero, magVal_zero]
theorem fl_neg (n : Int) : fl (-n) = - fl n := by
  unfold fl
  rw [Int.natAbs_neg]
  rcases Int.lt_trichotomy n 0 with h | h | h
  · rw [if_neg (by omega), if_pos h]; simp
  · subst h; simp [roundMag_zero, magVal_zero]
  · rw [if_pos (by omega), if_neg (by omega)]
theorem fl_ofNat (n : Nat) : fl n = magVal (roundMag n 1) := by
  unfold fl; rw [if_neg (by omega)]; simp
theorem fl_nonneg {n : Int} (h : 0 ≤ n) : 0 ≤ fl n := by unfold fl; rw [if_neg (by omega)]; omega
theorem fl_mono {m n : Int} (h : m ≤ n) : fl m ≤ fl n := by
  unfold fl
  split <;> split
  · have : roundMag n.natAbs 1 ≤ roundMag m.natAbs 1 := roundMag_mono (by decide) (by decide) (by omega)
    have := magVal_le this
    omega
  · omega
  · omega
  · have : roundMag m.natAbs 1 ≤ roundMag n.natAbs 1 := roundMag_mono (by decide) (by decide) (by omega)
    have := magVal_le this
    omega
theorem fl_lt {m n : Int} (h : fl m < fl n) : m < n := by
  apply Int.lt_of_not_ge; intro h'; have := fl_mono h'; omega
theorem natAbs_fl (n : Int) : (fl n).natAbs = magVal (roundMag n.natAbs 1) := by
  unfold fl
  split
  · rw [Int.natAbs_neg]; exact Int.natAbs_natCast _
  · exact Int.natAbs_natCast _
/-- Values of floats (and infinity) are kept. -/
theorem fl_val {x : F32} (h : x.isNan = false) : fl x.val = x.val := by
  have hb := (notNan_iff x).1 h
  have hr := roundMag_magVal hb
  unfold fl
  rw [natAbs_val, hr]
  unfold val
  split <;> split <;> omega
theorem fl_magVal {b : Nat} (h : b ≤ 255 * 2 ^ 23) : fl (magVal b) = magVal b := by rw [fl_ofNat, roundMag_magVal h]
theorem fl_one : fl 1 = 1 := by
  have h := fl_magVal (b := 1) (by omega)
  have h' : magVal 1 = 1 := magVal_small (by omega)
  rw [h'] at h
  exact h
theorem fl_pos {n : Int} (h : 0 < n) : 0 < fl n := by have := fl_mono (show (1 : Int) ≤ n by omega); rw [fl_one] at this; omega
theorem fl_neg_iff {n : Int} : fl n < 0 ↔ n < 0 := by
  constructor
  · intro h; apply Int.lt_of_not_ge; intro h'; have := fl_nonneg h'; omega
  · intro h; have := fl_pos (show 0 < -n by omega); rw [fl_neg] at this; omega
theorem fl_pos_iff {n : Int} : 0 < fl n ↔ 0 < n := by
  have := @fl_neg_iff (-n); rw [fl_neg] at this; omega
theorem fl_abs (n : Int) : fl n.natAbs = (fl n).natAbs := by
  rw [natAbs_fl, fl_ofNat]

/-! ## Sums and differences -/

theorem neg_neg? (x : F32) : x.neg.neg? = !x.neg? := neg?_pack (magBits_lt x)
theorem neg_magBits (x : F32) : x.neg.magBits = x.magBits := magBits_pack (magBits_lt x)
theorem neg_val (x : F32) : x.neg.val = - x.val := by
  unfold val; rw [neg_neg?, neg_magBits]; cases x.neg? <;> simp
theorem neg_notNan {x : F32} (h : x.isNan = false) : x.neg.isNan = false := by rw [notNan_iff] at *; rw [neg_magBits]; exact h
theorem neg_finite {x : F32} (h : F32.finite x = true) : F32.finite x.neg = true := by rw [finite_mag] at *; rw [neg_magBits]; exact h
theorem abs_magBits (x : F32) : x.abs.magBits = x.magBits := magBits_pack (magBits_lt x)
theorem abs_val (x : F32) : x.abs.val = x.val.natAbs := by
  unfold abs; rw [val_pack (magBits_lt x), natAbs_val]; rfl
theorem abs_notNan {x : F32} (h : x.isNan = false) : x.abs.isNan = false := by rw [notNan_iff] at *; rw [abs_magBits]; exact h
theorem abs_finite {x : F32} (h : F32.finite x = true) : F32.finite x.abs = true := by rw [finite_mag] at *; rw [abs_magBits]; exact h

theorem roundMag_lt (p q : Nat) : roundMag p q < 2 ^ 31 := by have := roundMag_le p q; omega

theorem pack_notNan {s : Bool} {b : Nat} (h : b ≤ 255 * 2 ^ 23) : (pack s b).isNan = false := by
  rw [notNan_iff, magBits_pack (by omega)]; exact h

theorem add_val {x y : F32} (hx : F32.finite x = true) (hy : F32.finite y = true) :
    (x.add y).isNan = false ∧ (x.add y).val = fl (x.val + y.val) := by
  unfold add
  rw [finite_notNan hx, finite_notNan hy, finite_notInf hx, finite_notInf hy]
  simp only [Bool.or_self, Bool.false_eq_true, if_false]
  split
  · next h => rw [h, fl_zero]; exact ⟨pack_notNan (by omega), by rw [val_pack (by omega), magVal_zero]; split <;> rfl⟩
  · refine ⟨pack_notNan (roundMag_le _ _), ?_⟩
    rw [val_pack (roundMag_lt _ _)]
    unfold fl
    simp only [decide_eq_true_eq]

theorem sub_val {x y : F32} (hx : F32.finite x = true) (hy : F32.finite y = true) :
    (x.sub y).isNan = false ∧ (x.sub y).val = fl (x.val - y.val) := by
  have := add_val hx (neg_finite hy)
  rw [neg_val] at this
  exact this

/-- The value of infinity. -/
theorem val_inf {x : F32} (h : x.isInf = true) : x.val = if x.neg? then -(top : Int) else top := by
  unfold val; rw [(isInf_iff x).1 h, magVal_inf]
theorem val_finite {x : F32} (h : F32.finite x = true) : -(top : Int) < x.val ∧ x.val < top := by
  have h1 := magVal_lt ((finite_mag x).1 h)
  rw [magVal_inf] at h1
  have h2 := natAbs_val x
  rw [← h2] at h1
  omega
theorem finite_iff_val {x : F32} (h : x.isNan = false) : F32.finite x = true ↔ x.val.natAbs < top := by
  rw [finite_mag, natAbs_val, ← magVal_inf, magVal_lt_iff]

theorem le_iff {x y : F32} (hx : x.isNan = false) (hy : y.isNan = false) : x.le y = true ↔ x.val ≤ y.val := by unfold le; simp [hx, hy]
theorem lt_iff {x y : F32} (hx : x.isNan = false) (hy : y.isNan = false) : x.lt y = true ↔ x.val < y.val := by unfold lt; simp [hx, hy]

/-- A difference is at most zero exactly if the first operand is at most the second, also if that is infinite. -/
theorem sub_le_zero {x y : F32} (hx : x.isNan = false) (hy : F32.finite y = true) :
    (x.sub y).isNan = false ∧ ((x.sub y).val ≤ 0 ↔ x.val ≤ y.val) := by
  by_cases hi : x.isInf = true
  · have e : x.sub y = x := by
      unfold sub add
      rw [hx, neg_notNan (finite_notNan hy), hi, finite_notInf (neg_finite hy)]
      simp
    rw [e]
    refine ⟨hx, ?_⟩
    have h1 := val_inf hi
    have h2 := val_finite hy
    split at h1 <;> omega
  · have hf := finite_of hx (by simpa using hi)
    obtain ⟨h1, h2⟩ := sub_val hf hy
    refine ⟨h1, ?_⟩
    rw [h2]
    have := @fl_pos_iff (x.val - y.val)
    omega

/-! ## Halves -/

theorem two_magBits : two.magBits = 2 ^ 30 := by decide +kernel
theorem two_val : magVal two.magBits = 2 ^ 150 := by decide +kernel

/-- The magnitude of half of `m` units. -/
def hf (m : Nat) : Nat := magVal (roundMag (m * 2 ^ 149) (2 ^ 150))

theorem half_eq {x : F32} (hx : F32.finite x = true) : x.half = pack x.neg? (roundMag (magVal x.magBits * 2 ^ 149) (2 ^ 150)) := by
  unfold half div
  rw [finite_notNan hx, finite_notInf hx, two_val, two_magBits]
  have h1 : two.isNan = false := by decide +kernel
  have h2 : two.isInf = false := by decide +kernel
  have h3 : two.neg? = false := by decide +kernel
  rw [h1, h2, h3]
  simp

theorem half_val {x : F32} (hx : F32.finite x = true) :
    x.half.isNan = false ∧ x.half.neg? = x.neg? ∧ x.half.val = if x.neg? then -(hf (magVal x.magBits) : Int) else hf (magVal x.magBits) := by
  rw [half_eq hx]
  refine ⟨pack_notNan (roundMag_le _ _), neg?_pack (roundMag_lt _ _), ?_⟩
  rw [val_pack (roundMag_lt _ _)]; rfl

theorem hf_mono {m n : Nat} (h : m ≤ n) : hf m ≤ hf n := by
  apply magVal_le
  apply roundMag_mono (Nat.two_pow_pos _) (Nat.two_pow_pos _)
  exact Nat.mul_le_mul_right _ (Nat.mul_le_mul_right _ h)

theorem hf_double (m : Nat) : hf (2 * m) = magVal (roundMag m 1) := by
  have h : roundMag (2 * m * 2 ^ 149) (2 ^ 150) = roundMag m 1 := ?_
  · unfold hf; rw [h]
  apply roundMag_congr (Nat.two_pow_pos _) (by decide)
  have h : (2 : Nat) ^ 150 = 2 ^ 149 * 2 := Nat.pow_succ ..
  rw [h]
  generalize (2 : Nat) ^ 149 = k
  rw [Nat.mul_one, Nat.mul_comm 2 m, Nat.mul_assoc, Nat.mul_comm k]

/-- Rounding down to half. -/
theorem le_hf {p m : Nat} (h : 2 * p ≤ m) : magVal (roundMag p 1) ≤ hf m := by
  rw [← hf_double]; exact hf_mono h
theorem hf_le {p m : Nat} (h : m ≤ 2 * p) : hf m ≤ magVal (roundMag p 1) := by
  rw [← hf_double]; exact hf_mono h

/-- Half of an even representable magnitude is representable. -/
theorem half_rep {b : Nat} (hb : b ≤ 255 * 2 ^ 23) (he : magVal b % 2 = 0) : ∃ b', b' ≤ b ∧ magVal b' * 2 = magVal b := by
  by_cases h : b < 2 ^ 24
  · rw [magVal_small h] at *
    exact ⟨b / 2, by omega, by rw [magVal_small (by omega)]; omega⟩
  · obtain ⟨e, m, hm, rfl⟩ : ∃ e m, m < 2 ^ 23 ∧ b = (e + 1 + 1) * 2 ^ 23 + m :=
      ⟨b / 2 ^ 23 - 2, b % 2 ^ 23, Nat.mod_lt _ (by decide), by omega⟩
    clear he
    refine ⟨(e + 1) * 2 ^ 23 + m, by clear hb h; omega, ?_⟩
    have h2 : (2 : Nat) ^ (e + 1) = 2 ^ e * 2 := Nat.pow_succ ..
    rw [magVal_parts hm, magVal_parts hm, h2, Nat.mul_assoc]

theorem odd_small {b : Nat} (he : magVal b % 2 = 1) : b < 2 ^ 24 := by
  apply Nat.lt_of_not_le
  intro h
  obtain ⟨e, m, hm, rfl⟩ : ∃ e m, m < 2 ^ 23 ∧ b = (e + 1 + 1) * 2 ^ 23 + m :=
    ⟨b / 2 ^ 23 - 2, b % 2 ^ 23, Nat.mod_lt _ (by decide), by omega⟩
  have h2 : (2 : Nat) ^ (e + 1) = 2 ^ e * 2 := Nat.pow_succ ..
  rw [magVal_parts hm, h2, ← Nat.mul_assoc] at he
  omega

/-- Half is exact on even magnitudes, and off by half a unit on odd ones. -/
theorem hf_even {b : Nat} (hb : b ≤ 255 * 2 ^ 23) (he : magVal b % 2 = 0) : 2 * hf (magVal b) = magVal b := by
  obtain ⟨b', h1, h2⟩ := half_rep hb he
  rw [← h2, Nat.mul_comm (magVal b'), hf_double, roundMag_magVal (by omega)]
theorem hf_bound {b : Nat} (hb : b ≤ 255 * 2 ^ 23) : 2 * hf (magVal b) ≤ magVal b + 1 ∧ magVal b ≤ 2 * hf (magVal b) + 1 := by
  by_cases he : magVal b % 2 = 0
  · rw [hf_even hb he]; omega
  · have hs := odd_small (show magVal b % 2 = 1 by omega)
    rw [magVal_small hs] at *
    have h1 : hf b ≤ magVal (roundMag ((b + 1) / 2) 1) := hf_le (by omega)
    have h2 : magVal (roundMag ((b - 1) / 2) 1) ≤ hf b := le_hf (by omega)
    have e1 : magVal (roundMag ((b + 1) / 2) 1) = (b + 1) / 2 := by
      have := roundMag_magVal (b := (b + 1) / 2) (by omega)
      have hm : magVal ((b + 1) / 2) = (b + 1) / 2 := magVal_small (by omega)
      rw [hm] at this; rw [this, hm]
    have e2 : magVal (roundMag ((b - 1) / 2) 1) = (b - 1) / 2 := by
      have := roundMag_magVal (b := (b - 1) / 2) (by omega)
      have hm : magVal ((b - 1) / 2) = (b - 1) / 2 := magVal_small (by omega)
      rw [hm] at this; rw [this, hm]
    omega

theorem half_finite {x : F32} (hx : F32.finite x = true) : F32.finite x.half = true := by
  obtain ⟨h1, _, h3⟩ := half_val hx
  rw [finite_iff_val h1]
  have h4 := val_finite hx
  have h5 := natAbs_val x
  have h6 := (hf_bound (b := x.magBits) (by rw [finite_mag] at hx; omega)).1
  generalize magVal x.magBits = m at *
  split at h3 <;> omega

/-! ## Errors of sums -/

theorem fl_err {n : Int} (h : (fl n).natAbs < top) : 2 ^ 24 * (fl n - n).natAbs ≤ n.natAbs := by
  have hr : roundMag n.natAbs 1 < 255 * 2 ^ 23 := by rw [natAbs_fl, ← magVal_inf, magVal_lt_iff] at h; exact h
  have he := roundMag_err (by decide) hr
  simp only [Nat.mul_one] at he
  have : fl n = if n < 0 then -(magVal (roundMag n.natAbs 1) : Int) else magVal (roundMag n.natAbs 1) := rfl
  generalize magVal (roundMag n.natAbs 1) = v at *
  split at this <;> omega

end F32
end Verif
