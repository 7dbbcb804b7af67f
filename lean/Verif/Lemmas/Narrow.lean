import Verif.Model.PyMesh
import Verif.Lemmas.Ieee
/-! # A double made a float: the nearest one -/
set_option exponentiation.threshold 2000

namespace Verif

theorem roundShift_near (n k : Nat) : 2 * (roundShift n k * 2 ^ k) ≤ 2 * n + 2 ^ k ∧ 2 * n ≤ 2 * (roundShift n k * 2 ^ k) + 2 ^ k := by
  have hp : 0 < 2 ^ k := Nat.two_pow_pos k
  have hd := Nat.div_add_mod n (2 ^ k)
  have hm := Nat.mod_lt n hp
  unfold roundShift
  generalize n / 2 ^ k = q at *
  generalize n % 2 ^ k = r at *
  generalize 2 ^ k = P at *
  simp only
  have e : P * q = q * P := Nat.mul_comm ..
  split
  · have : (q + 1) * P = q * P + P := by rw [Nat.add_mul, Nat.one_mul]
    omega
  · omega

namespace F64

/-- The magnitude bits of the float. -/
def narrowBits (d : F64) : Nat :=
  let e := d.toNat / 2 ^ 52 % 2 ^ 11
  let m := d.toNat % 2 ^ 52
  if e = 0 then 0 else if e < 897 then roundShift (2 ^ 52 + m) (926 - e) else min ((e - 897) * 2 ^ 23 + roundShift (2 ^ 52 + m) 29) (255 * 2 ^ 23)

theorem toFloat_eq (d : F64) (hf : d.finite = true) : d.toFloat = UInt32.ofNat (d.toNat / 2 ^ 63 * 2 ^ 31 + d.narrowBits) := by
  rw [F64.finite_iff] at hf
  unfold F64.toFloat narrowBits
  simp only [hf, if_false]
  split
  · rw [Nat.add_zero]
  · split <;> rfl

theorem narrowBits_lt (d : F64) : d.narrowBits ≤ 255 * 2 ^ 23 := by
  unfold narrowBits
  simp only
  have hm : d.toNat % 2 ^ 52 < 2 ^ 52 := Nat.mod_lt _ (by decide)
  generalize d.toNat % 2 ^ 52 = m at *
  split
  · omega
  · split
    · rename_i e0 e1
      obtain ⟨j, hj⟩ : ∃ j, 926 - d.toNat / 2 ^ 52 % 2 ^ 11 = 30 + j := ⟨926 - d.toNat / 2 ^ 52 % 2 ^ 11 - 30, by omega⟩
      rw [hj]
      have := (roundShift_near (2 ^ 52 + m) (30 + j)).1
      have hp : 1 ≤ 2 ^ j := Nat.two_pow_pos j
      rw [Nat.pow_add] at this
      generalize roundShift (2 ^ 52 + m) (30 + j) = r at *
      generalize 2 ^ j = P at *
      have h2 : r * (2 ^ 30 * P) = 2 ^ 30 * (r * P) := by rw [Nat.mul_left_comm]
      have h3 : r ≤ r * P := Nat.le_mul_of_pos_right _ hp
      rw [h2] at this
      apply Decidable.byContradiction; intro hc
      have : 255 * 2 ^ 23 * P ≤ r * P := Nat.mul_le_mul_right _ (by omega)
      omega
    · omega

theorem toFloat_parts (d : F64) (hf : d.finite = true) : d.toFloat.neg? = d.negative ∧ d.toFloat.magBits = d.narrowBits := by
  have h := narrowBits_lt d
  have hd : d.toNat < 2 ^ 64 := d.toNat_lt
  rw [toFloat_eq d hf]
  have e : (UInt32.ofNat (d.toNat / 2 ^ 63 * 2 ^ 31 + d.narrowBits)).toNat = d.toNat / 2 ^ 63 * 2 ^ 31 + d.narrowBits := by
    rw [UInt32.toNat_ofNat', Nat.mod_eq_of_lt (by omega)]
  unfold F32.neg? F32.magBits negative
  rw [e]
  constructor
  · rw [decide_eq_decide]; omega
  · omega

/-- The value of the float is within half a unit in the last place. -/
theorem narrow_near (d : F64) (hf : d.finite = true) (hb : d.magVal < 2 ^ 1201) : d.narrowBits < 255 * 2 ^ 23 ∧
    2 ^ 24 * (2 ^ 925 * F32.magVal d.narrowBits) ≤ 2 ^ 24 * d.magVal + (d.magVal + 2 ^ 948) ∧
    2 ^ 24 * d.magVal ≤ 2 ^ 24 * (2 ^ 925 * F32.magVal d.narrowBits) + (d.magVal + 2 ^ 948) := by
  have hm : d.toNat % 2 ^ 52 < 2 ^ 52 := Nat.mod_lt _ (by decide)
  have he : d.toNat / 2 ^ 52 % 2 ^ 11 < 2048 := Nat.mod_lt _ (by decide)
  rw [F64.finite_iff] at hf
  unfold magVal narrowBits at *
  simp only at *
  generalize d.toNat % 2 ^ 52 = m at *
  generalize d.toNat / 2 ^ 52 % 2 ^ 11 = e at *
  by_cases e0 : e = 0
  · simp only [e0, if_true]
    have : F32.magVal 0 = 0 := rfl
    rw [this]
    have : (2 : Nat) ^ 76 ≤ 2 ^ 948 := Nat.pow_le_pow_right (by decide) (by decide)
    generalize (2 : Nat) ^ 948 = u at *
    omega
  · have e0' := Nat.pos_of_ne_zero e0
    simp only [if_neg e0] at *
    by_cases e1 : e < 897
    · simp only [e1, if_true]
      obtain ⟨n1, n2⟩ := roundShift_near (2 ^ 52 + m) (926 - e)
      have hr : roundShift (2 ^ 52 + m) (926 - e) ≤ 2 ^ 23 := by
        obtain ⟨j, hj⟩ : ∃ j, 926 - e = 30 + j := ⟨926 - e - 30, by omega⟩
        rw [hj] at n1 ⊢
        have hp : 1 ≤ 2 ^ j := Nat.two_pow_pos j
        rw [Nat.pow_add] at n1
        generalize roundShift (2 ^ 52 + m) (30 + j) = r at *
        generalize 2 ^ j = P at *
        have h2 : r * (2 ^ 30 * P) = 2 ^ 30 * (r * P) := by rw [Nat.mul_left_comm]
        rw [h2] at n1
        apply Decidable.byContradiction; intro hc
        have h3 : (2 ^ 23 + 1) * P ≤ r * P := Nat.mul_le_mul_right _ (by omega)
        omega
      generalize roundShift (2 ^ 52 + m) (926 - e) = r at *
      have hv : F32.magVal r = r := by
        unfold F32.magVal
        by_cases h : r = 2 ^ 23
        · subst h; rfl
        · rw [if_pos (show r / 2 ^ 23 = 0 by omega)]
      rw [hv]
      have hpw : 2 ^ (926 - e) * 2 ^ (e - 1) = (2 : Nat) ^ 925 := by rw [← Nat.pow_add]; congr 1; omega
      have h24 : (2 : Nat) ^ 948 = 2 ^ 23 * 2 ^ 925 := by rw [← Nat.pow_add]
      have k1 := Nat.mul_le_mul_right (2 ^ (e - 1)) n1
      have k2 := Nat.mul_le_mul_right (2 ^ (e - 1)) n2
      simp only [Nat.add_mul, Nat.mul_assoc, hpw] at k1 k2
      rw [h24]
      simp only [Nat.add_mul]
      refine ⟨by omega, ?_, ?_⟩
      · rw [Nat.mul_comm (2 ^ 925) r]
        generalize (2 : Nat) ^ 925 = u at *
        generalize (2 : Nat) ^ (e - 1) = P at *
        generalize r * u = ru at *
        generalize m * P = mp at *
        omega
      · rw [Nat.mul_comm (2 ^ 925) r]
        generalize (2 : Nat) ^ 925 = u at *
        generalize (2 : Nat) ^ (e - 1) = P at *
        generalize r * u = ru at *
        generalize m * P = mp at *
        omega
    · simp only [e1, if_false]
      obtain ⟨n1, n2⟩ := roundShift_near (2 ^ 52 + m) 29
      have he2 : e ≤ 1149 := by
        apply Decidable.byContradiction; intro hc
        have : 2 ^ 52 * 2 ^ 1149 ≤ (2 ^ 52 + m) * 2 ^ (e - 1) :=
          Nat.mul_le_mul (Nat.le_add_right ..) (Nat.pow_le_pow_right (by decide) (by omega))
        rw [← Nat.pow_add] at this
        omega
      have hr : 2 ^ 23 ≤ roundShift (2 ^ 52 + m) 29 ∧ roundShift (2 ^ 52 + m) 29 ≤ 2 ^ 24 := by omega
      generalize roundShift (2 ^ 52 + m) 29 = r at *
      rw [Nat.min_eq_left (by omega)]
      refine ⟨by omega, ?_⟩
      have hv : F32.magVal ((e - 897) * 2 ^ 23 + r) = r * 2 ^ (e - 897) := by
        unfold F32.magVal
        by_cases h : r = 2 ^ 24
        · subst h
          rw [if_neg (by omega)]
          have d1 : ((e - 897) * 2 ^ 23 + 2 ^ 24) / 2 ^ 23 = e - 897 + 2 := by omega
          have d2 : ((e - 897) * 2 ^ 23 + 2 ^ 24) % 2 ^ 23 = 0 := by omega
          rw [d1, d2]
          have : e - 897 + 2 - 1 = (e - 897) + 1 := by omega
          rw [this, Nat.pow_succ 2 (e - 897), Nat.mul_comm (2 ^ (e - 897)) 2, ← Nat.mul_assoc]
        · rw [if_neg (by omega)]
          have d1 : ((e - 897) * 2 ^ 23 + r) / 2 ^ 23 = e - 897 + 1 := by omega
          have d2 : ((e - 897) * 2 ^ 23 + r) % 2 ^ 23 = r - 2 ^ 23 := by omega
          rw [d1, d2, Nat.add_sub_cancel, Nat.add_sub_cancel' hr.1]
      rw [hv]
      have hpw : (2 : Nat) ^ 925 * (r * 2 ^ (e - 897)) = r * 2 ^ 29 * 2 ^ (e - 1) := by
        have : 925 + (e - 897) = 29 + (e - 1) := by omega
        rw [Nat.mul_left_comm, ← Nat.pow_add, Nat.mul_assoc, ← Nat.pow_add, this]
      rw [hpw]
      clear hpw hv hb
      have a1 : 2 ^ 24 * (r * 2 ^ 29) ≤ 2 ^ 24 * (2 ^ 52 + m) + (2 ^ 52 + m) := by omega
      have a2 : 2 ^ 24 * (2 ^ 52 + m) ≤ 2 ^ 24 * (r * 2 ^ 29) + (2 ^ 52 + m) := by omega
      have b1 := Nat.mul_le_mul_right (2 ^ (e - 1)) a1
      have b2 := Nat.mul_le_mul_right (2 ^ (e - 1)) a2
      rw [Nat.add_mul, Nat.mul_assoc (2 ^ 24), Nat.mul_assoc (2 ^ 24)] at b1 b2
      exact ⟨Nat.le_trans b1 (by generalize (2 : Nat) ^ 948 = u; omega), Nat.le_trans b2 (by generalize (2 : Nat) ^ 948 = u; omega)⟩

end F64
end Verif
