import Verif.Spec.Json
/-! # Widening a float and narrowing it again -/

namespace Verif

theorem F32.finite_iff (x : F32) : F32.finite x = true ↔ x.toNat / 2 ^ 23 % 2 ^ 8 ≠ 255 := by
  unfold F32.finite
  have h : ((x >>> 23) &&& 0xFF).toNat = x.toNat / 2 ^ 23 % 2 ^ 8 := by
    rw [UInt32.toNat_and, UInt32.toNat_shiftRight]
    show (x.toNat >>> 23) &&& (2 ^ 8 - 1) = _
    rw [Nat.and_two_pow_sub_one_eq_mod, Nat.shiftRight_eq_div_pow]
  rw [bne_iff_ne, ne_eq, ← UInt32.toNat_inj, h]
  exact Iff.rfl

theorem F64.finite_iff (x : F64) : F64.finite x = true ↔ x.toNat / 2 ^ 52 % 2 ^ 11 ≠ 2047 := by
  unfold F64.finite
  have h : ((x >>> 52) &&& 0x7FF).toNat = x.toNat / 2 ^ 52 % 2 ^ 11 := by
    rw [UInt64.toNat_and, UInt64.toNat_shiftRight]
    show (x.toNat >>> 52) &&& (2 ^ 11 - 1) = _
    rw [Nat.and_two_pow_sub_one_eq_mod, Nat.shiftRight_eq_div_pow]
  rw [bne_iff_ne, ne_eq, ← UInt64.toNat_inj, h]
  exact Iff.rfl

theorem roundShift_exact (a k : Nat) : roundShift (a * 2 ^ k) k = a := by
  unfold roundShift
  have hp : 0 < 2 ^ k := Nat.two_pow_pos k
  simp only [Nat.mul_div_cancel _ hp, Nat.mul_mod_left]
  rw [if_neg (by omega)]

/-- the parts of a double -/
theorem F64.parts {s e m : Nat} (hs : s ≤ 1) (he : e < 2 ^ 11) (hm : m < 2 ^ 52) :
    let n := (UInt64.ofNat (s * 2 ^ 63 + e * 2 ^ 52 + m)).toNat
    n / 2 ^ 63 = s ∧ n / 2 ^ 52 % 2 ^ 11 = e ∧ n % 2 ^ 52 = m := by
  have hlt : s * 2 ^ 63 + e * 2 ^ 52 + m < 2 ^ 64 := by omega
  simp only [UInt64.toNat_ofNat', Nat.mod_eq_of_lt hlt]
  omega

theorem small {e m : Nat} (he : e < 255) (hm : m < 2 ^ 23) : e * 2 ^ 23 + m ≤ 255 * 2 ^ 23 := by omega

theorem ieee_exact (x : F32) (h : F32.finite x = true) : F64.finite x.toDouble = true ∧ x.toDouble.toFloat = x := by
  rw [F32.finite_iff] at h
  rw [F64.finite_iff]
  have hx : x.toNat < 2 ^ 32 := x.toNat_lt
  obtain ⟨s, hs⟩ : ∃ s, s = x.toNat / 2 ^ 31 := ⟨_, rfl⟩
  obtain ⟨e, he⟩ : ∃ e, e = x.toNat / 2 ^ 23 % 2 ^ 8 := ⟨_, rfl⟩
  obtain ⟨m, hm⟩ : ∃ m, m = x.toNat % 2 ^ 23 := ⟨_, rfl⟩
  have hxx : x.toNat = s * 2 ^ 31 + e * 2 ^ 23 + m := by omega
  have hs1 : s ≤ 1 := by omega
  have he1 : e < 255 := by omega
  have hm1 : m < 2 ^ 23 := by omega
  have back : ∀ y : Nat, y = x.toNat → UInt32.ofNat y = x := by rintro y rfl; simp
  -- the double, by parts
  have key : ∀ E M : Nat, E < 2047 → M < 2 ^ 52 → x.toDouble = UInt64.ofNat (s * 2 ^ 63 + E * 2 ^ 52 + M) →
      (E = 0 → e = 0 ∧ m = 0) → (0 < E → E < 897 → roundShift (2 ^ 52 + M) (926 - E) = e * 2 ^ 23 + m) →
      (897 ≤ E → (E - 897) * 2 ^ 23 + roundShift (2 ^ 52 + M) 29 = e * 2 ^ 23 + m) →
      x.toDouble.toNat / 2 ^ 52 % 2 ^ 11 ≠ 2047 ∧ x.toDouble.toFloat = x := by
    intro E M hE hM hd h0 h1 h2
    obtain ⟨p1, p2, p3⟩ := F64.parts hs1 (show E < 2 ^ 11 by omega) hM
    rw [hd]
    refine ⟨by rw [p2]; omega, ?_⟩
    unfold F64.toFloat
    simp only [p1, p2, p3]
    apply back
    rw [if_neg (by omega)]
    by_cases c0 : E = 0
    · rw [if_pos c0]; obtain ⟨a, b⟩ := h0 c0; omega
    · rw [if_neg c0]
      by_cases c1 : E < 897
      · rw [if_pos c1, h1 (by omega) c1]; omega
      · rw [if_neg c1, h2 (by omega), Nat.min_eq_left (small he1 hm1), hxx, Nat.add_assoc]
  by_cases c0 : e = 0
  · by_cases c1 : m = 0
    · refine key 0 0 (by omega) (by omega) ?_ (fun _ => ⟨c0, c1⟩) (by omega) (by omega)
      unfold F32.toDouble
      simp only [← hs, ← he, ← hm]
      rw [if_neg (by omega), if_pos c0, if_pos c1, Nat.zero_mul, Nat.add_zero]
    · have hk : m.log2 < 23 := (Nat.log2_lt c1).2 hm1
      have hlo : 2 ^ m.log2 ≤ m := Nat.log2_self_le c1
      have hhi : m < 2 ^ (m.log2 + 1) := Nat.lt_log2_self
      generalize hkk : m.log2 = k at *
      have e1 : 2 ^ k * 2 ^ (52 - k) = 2 ^ 52 := by rw [← Nat.pow_add]; congr 1; omega
      have e2 : 2 ^ (k + 1) * 2 ^ (52 - k) = 2 ^ 53 := by rw [← Nat.pow_add]; congr 1; omega
      have b1 : 2 ^ 52 ≤ m * 2 ^ (52 - k) := by rw [← e1]; exact Nat.mul_le_mul_right _ hlo
      have b2 : m * 2 ^ (52 - k) < 2 ^ 53 := by rw [← e2]; exact Nat.mul_lt_mul_of_pos_right hhi (Nat.two_pow_pos _)
      refine key (k + 874) (m * 2 ^ (52 - k) - 2 ^ 52) (by omega) (by omega) ?_ (by omega) ?_ (by omega)
      · unfold F32.toDouble
        simp only [← hs, ← he, ← hm]
        rw [if_neg (by omega), if_pos c0, if_neg c1, hkk]
      · intro _ _
        have : 2 ^ 52 + (m * 2 ^ (52 - k) - 2 ^ 52) = m * 2 ^ (52 - k) := by omega
        rw [this, show 926 - (k + 874) = 52 - k by omega, roundShift_exact, c0]
        omega
  · refine key (e + 896) (m * 2 ^ 29) (by omega) (by omega) ?_ (by omega) (by omega) ?_
    · unfold F32.toDouble
      simp only [← hs, ← he, ← hm]
      rw [if_neg (by omega), if_neg c0]
    · intro _
      have : 2 ^ 52 + m * 2 ^ 29 = (2 ^ 23 + m) * 2 ^ 29 := by omega
      rw [this, roundShift_exact]
      omega

/-- infinities and NaN stay so -/
theorem ieee_special (x : F32) (h : ¬ F32.finite x = true) : ¬ F64.finite x.toDouble = true := by
  rw [F32.finite_iff] at h
  rw [F64.finite_iff]
  have hx : x.toNat < 2 ^ 32 := x.toNat_lt
  have he : x.toNat / 2 ^ 23 % 2 ^ 8 = 255 := by omega
  have hd : x.toDouble = UInt64.ofNat (x.toNat / 2 ^ 31 * 2 ^ 63 + 2047 * 2 ^ 52 + x.toNat % 2 ^ 23 * 2 ^ 29) := by
    unfold F32.toDouble
    simp only [he, if_true]
  obtain ⟨_, p2, _⟩ := F64.parts (s := x.toNat / 2 ^ 31) (e := 2047) (m := x.toNat % 2 ^ 23 * 2 ^ 29) (by omega) (by decide) (by omega)
  rw [hd, p2]
  simp

theorem JArith.exact (F : JArith) : F.Exact := ieee_exact

end Verif
