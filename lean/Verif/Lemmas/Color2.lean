import Verif.Lemmas.Color
/-! # Colours: blending -/

namespace Verif
namespace F32

theorem mul_unit {x y : F32} (hx : F32.finite x = true) (hy : F32.finite y = true) (px : 0 ≤ x.val) (h : y.val = unit) : (x.mul y).val = x.val := by
  have h1 := mul_le_left hx hy px (by rw [h]; omega) (by rw [h]; exact Int.le_refl _)
  obtain ⟨_, h2⟩ := mul_natAbs hx hy
  have hm : x.val.natAbs ≤ magVal (roundMag (x.val.natAbs * y.val.natAbs) unit) := by
    have h3 := magVal_le (roundMag_mono (p := x.val.natAbs) (q := 1) (p' := x.val.natAbs * y.val.natAbs) (by decide) unit_pos (by
      rw [h, Int.natAbs_natCast, Nat.mul_one]; exact Nat.le_refl _))
    refine Nat.le_trans (Nat.le_of_eq ?_) h3
    rw [natAbs_val, roundMag_magVal (by have := (finite_mag x).1 hx; omega)]
  rw [h2] at h1 ⊢
  generalize magVal (roundMag (x.val.natAbs * y.val.natAbs) unit) = v at *
  split <;> split at h1 <;> first | contradiction | omega

theorem mul_zero_right {x y : F32} (hx : F32.finite x = true) (hy : F32.finite y = true) (h : y.val = 0) : F32.finite (x.mul y) = true ∧ (x.mul y).val = 0 := by
  have h1 := mul_close hx hy (by rw [h]; simp)
  refine ⟨h1.1, ?_⟩
  have h2 := h1.2
  rw [h] at h2
  simp only [Int.mul_zero, Int.sub_zero, Int.natAbs_zero, Nat.zero_add, Int.natAbs_mul, Int.natAbs_natCast] at h2
  have hu := unit_pos
  apply Classical.byContradiction; intro hne
  have h4 : unit ≤ (x.mul y).val.natAbs * unit := Nat.le_mul_of_pos_left _ (by omega)
  generalize (x.mul y).val.natAbs * unit = a at *
  omega

theorem mul_nonneg_val {x y : F32} (hx : F32.finite x = true) (hy : F32.finite y = true) (px : 0 ≤ x.val) (py : 0 ≤ y.val) : 0 ≤ (x.mul y).val := by
  obtain ⟨h1, h2⟩ := mul_natAbs hx hy
  rw [h2]
  split
  · rename_i hs
    have : x.val = 0 ∨ y.val = 0 := by
      have e1 := val_eq_mag x
      have e2 := val_eq_mag y
      cases hnx : x.neg? <;> cases hny : y.neg? <;> rw [hnx] at e1 hs <;> rw [hny] at e2 hs <;> simp at hs e1 e2 <;> omega
    have h0 : x.val.natAbs * y.val.natAbs = 0 := by
      rcases this with h | h <;> rw [h] <;> simp
    have : magVal (roundMag 0 unit) = 0 := by decide +kernel
    rw [h0, this]; omega
  · omega

/-- An integer times a number: the error is relative, plus half a unit. -/
theorem nat_mul_close {r : Nat} {y : F32} (hr : r ≤ 255) (hy : F32.finite y = true) (h0 : 0 ≤ y.val) (h1 : y.val ≤ unit) :
    F32.finite ((ofNat r).mul y) = true ∧ 0 ≤ ((ofNat r).mul y).val ∧ ((ofNat r).mul y).val ≤ r * unit
    ∧ 2 ^ 24 * (((ofNat r).mul y).val - r * y.val).natAbs ≤ (r * y.val).natAbs + 2 ^ 23 := by
  obtain ⟨f1, f2⟩ := ofNat_small r (by omega)
  have hu := unit_pos
  have ha := mul_le_left f1 hy (by rw [f2]; exact Int.mul_nonneg (by omega) (by omega)) h0 h1
  have hb := mul_close f1 hy (by
    rw [f2, Int.natAbs_mul, Int.natAbs_natCast, Int.natAbs_natCast]
    exact Nat.mul_le_mul (Nat.mul_le_mul_right _ (by omega)) (by omega))
  refine ⟨ha.1, ha.2.1, by rw [← f2]; exact ha.2.2, ?_⟩
  have hc := hb.2
  have e : ((ofNat r).mul y).val * unit - (ofNat r).val * y.val = (((ofNat r).mul y).val - r * y.val) * unit := by
    rw [f2, Int.sub_mul, Int.mul_assoc, Int.mul_assoc, Int.mul_comm (unit : Int) y.val]
  have e2 : (ofNat r).val * y.val = r * y.val * unit := by rw [f2, Int.mul_assoc, Int.mul_assoc, Int.mul_comm (unit : Int) y.val]
  rw [e, e2, Int.natAbs_mul, Int.natAbs_mul _ (unit : Int), Int.natAbs_natCast, ← Nat.mul_assoc, ← Nat.add_mul] at hc
  exact Nat.le_of_mul_le_mul_right hc hu

theorem abs_le_of {d : Int} {e : Nat} (h : d.natAbs ≤ e) : d ≤ e ∧ -(e : Int) ≤ d := by omega

theorem blend_arith {A A' B P Q S : Int} {u : Nat} (hu : 2 ^ 40 ≤ u) (k1 : 2 ^ 24 * (P - A).natAbs ≤ 255 * u + 2 ^ 23) (k2 : 2 ^ 24 * (Q - B).natAbs ≤ 255 * u + 2 ^ 23)
    (k3 : 2 ^ 24 * (S - (P + Q)).natAbs ≤ 510 * u) (k4 : 2 ^ 24 * (A - A').natAbs ≤ 255 * u) : 2 ^ 13 * (S - (A' + B)).natAbs ≤ u := by
  have h : (S - (A' + B)).natAbs ≤ (S - (P + Q)).natAbs + (P - A).natAbs + (Q - B).natAbs + (A - A').natAbs := by
    have e : S - (A' + B) = (S - (P + Q)) + (P - A) + (Q - B) + (A - A') := by omega
    rw [e]
    exact Nat.le_trans (Int.natAbs_add_le _ _) (Nat.add_le_add_right (Nat.le_trans (Int.natAbs_add_le _ _) (Nat.add_le_add_right (Int.natAbs_add_le _ _) _)) _)
  generalize (S - (A' + B)).natAbs = a0 at *
  generalize (S - (P + Q)).natAbs = a1 at *
  generalize (P - A).natAbs = a2 at *
  generalize (Q - B).natAbs = a3 at *
  generalize (A - A').natAbs = a4 at *
  omega

theorem sum_small {a b : Int} {u : Nat} (h1 : 0 ≤ a) (h2 : 0 ≤ b) (h3 : a ≤ 255 * u) (h4 : b ≤ 255 * u) : (a + b).natAbs ≤ 2 ^ 20 * u := by omega

theorem abs_of_two {a b : Int} {u : Nat} (h1 : 0 ≤ a) (h2 : 0 ≤ b) (h3 : a ≤ 255 * u) (h4 : b ≤ 255 * u) : (a + b).natAbs ≤ 510 * u := by omega

theorem two_sides {d : Int} {u : Nat} (h : 2 ^ 13 * d.natAbs ≤ u) : 2 ^ 13 * d ≤ u ∧ -(u : Int) ≤ 2 ^ 13 * d := by omega

/-- The blended channel before truncation. -/
theorem blend_close {r o : Nat} {w : F32} (hr : r ≤ 255) (ho : o ≤ 255) (hw : F32.finite w = true) (h0 : 0 ≤ w.val) (h1 : w.val ≤ unit) :
    ∃ s : F32, s = ((ofNat r).mul (one.sub w)).add ((ofNat o).mul w) ∧ F32.finite s = true ∧ 0 ≤ s.val
    ∧ 2 ^ 13 * (s.val - (r * (unit - w.val) + o * w.val)).natAbs ≤ unit := by
  have hu := unit_big
  have hv := sub_close one_finite hw (by rw [one_unit]; omega)
  rw [one_unit] at hv
  have hv0 : 0 ≤ (one.sub w).val := by rw [hv.2.1]; exact fl_nonneg (by omega)
  have hv1 : (one.sub w).val ≤ unit := by
    rw [hv.2.1]; have := fl_unit 1 (by decide); rw [Int.mul_one] at this; exact Int.le_trans (fl_mono (by omega)) (Int.le_of_eq this)
  have hv2 : 2 ^ 24 * ((one.sub w).val - (unit - w.val)).natAbs ≤ unit := Nat.le_trans hv.2.2 (by clear hv; omega)
  have hp := nat_mul_close hr hv.1 hv0 hv1
  have hq := nat_mul_close ho hw h0 h1
  have hru : (r : Int) * unit ≤ 255 * unit := Int.mul_le_mul_of_nonneg_right (by omega) (by omega)
  have hou : (o : Int) * unit ≤ 255 * unit := Int.mul_le_mul_of_nonneg_right (by omega) (by omega)
  have hs := add_close hp.1 hq.1 (sum_small hp.2.1 hq.2.1 (Int.le_trans hp.2.2.1 hru) (Int.le_trans hq.2.2.1 hou))
  refine ⟨_, rfl, hs.1, by rw [hs.2.1]; exact fl_nonneg (Int.add_nonneg hp.2.1 hq.2.1), ?_⟩
  have a1 : ((r : Int) * (one.sub w).val).natAbs ≤ 255 * unit := by
    rw [Int.natAbs_mul, Int.natAbs_natCast]; exact Nat.mul_le_mul hr (by clear hv hp hq hs hv2; omega)
  have b1 : ((o : Int) * w.val).natAbs ≤ 255 * unit := by
    rw [Int.natAbs_mul, Int.natAbs_natCast]; exact Nat.mul_le_mul ho (by clear hv hp hq hs hv2; omega)
  have hd : 2 ^ 24 * ((r : Int) * (one.sub w).val - r * (unit - w.val)).natAbs ≤ 255 * unit := by
    rw [← Int.mul_sub, Int.natAbs_mul, Int.natAbs_natCast]
    rw [Nat.mul_left_comm]
    exact Nat.mul_le_mul hr hv2
  have hs1 := (abs_of_two hp.2.1 hq.2.1 (Int.le_trans hp.2.2.1 hru) (Int.le_trans hq.2.2.1 hou))
  exact blend_arith hu (Nat.le_trans hp.2.2.2 (Nat.add_le_add_right a1 _)) (Nat.le_trans hq.2.2.2 (Nat.add_le_add_right b1 _)) (Nat.le_trans hs.2.2 hs1) hd

end F32

namespace Color
open F32

theorem blendChannel_close {r o : UInt8} {w : F32} (hw : F32.finite w = true) (h0 : 0 ≤ w.val) (h1 : w.val ≤ unit) :
    ∃ c, blendChannel r o w = .ok c
      ∧ 2 ^ 13 * ((c.toNat : Int) * unit) ≤ 2 ^ 13 * (r.toNat * (unit - w.val) + o.toNat * w.val) + unit
      ∧ 2 ^ 13 * (r.toNat * (unit - w.val) + o.toNat * w.val) < 2 ^ 13 * (((c.toNat : Int) + 1) * unit) + unit := by
  have hr := r.toNat_lt
  have ho := o.toNat_lt
  obtain ⟨s, e, hs, hs0, hc⟩ := blend_close (r := r.toNat) (o := o.toNat) (by omega) (by omega) hw h0 h1
  have hu := unit_pos
  have hE : (r.toNat : Int) * (unit - w.val) + o.toNat * w.val ≤ 255 * unit := by
    have e1 : (r.toNat : Int) * (unit - w.val) ≤ 255 * (unit - w.val) := Int.mul_le_mul_of_nonneg_right (by omega) (by omega)
    have e2 : (o.toNat : Int) * w.val ≤ 255 * w.val := Int.mul_le_mul_of_nonneg_right (by omega) (by omega)
    omega
  generalize (r.toNat : Int) * (unit - w.val) + o.toNat * w.val = E at *
  obtain ⟨hc1, hc2⟩ := two_sides hc
  clear hc
  obtain ⟨c, k1, k2⟩ := toU8_ok hs (by omega) (by omega)
  refine ⟨c, by unfold blendChannel; rw [← e]; exact k1, ?_⟩
  have k3 : (c.toNat : Int) = s.val / unit := by rw [k2]; exact Int.toNat_of_nonneg (Int.ediv_nonneg hs0 (by omega))
  have k4 := Int.ediv_mul_le s.val (b := (unit : Int)) (by omega)
  have k5 := Int.lt_ediv_add_one_mul_self s.val (b := (unit : Int)) (by omega)
  rw [← k3] at k4 k5
  generalize ((c.toNat : Int) + 1) * unit = C1 at *
  generalize (c.toNat : Int) * unit = C0 at *
  clear k1 k2 k3 hE hs hs0 e h0 h1 hw hr ho
  omega

theorem toU8_exact {s : F32} {c : UInt8} (hs : F32.finite s = true) (h : s.val = c.toNat * unit) : s.toU8 = .ok c := by
  have hc := c.toNat_lt
  have hu := unit_pos
  have hru : (c.toNat : Int) * unit ≤ 255 * unit := Int.mul_le_mul_of_nonneg_right (by omega) (by omega)
  have hru0 : 0 ≤ (c.toNat : Int) * unit := Int.mul_nonneg (by omega) (by omega)
  obtain ⟨c', k1, k2⟩ := toU8_ok hs (by rw [h]; omega) (by rw [h]; omega)
  rw [k1]
  congr 1
  apply UInt8.toNat_inj.1
  rw [k2, h, Int.mul_ediv_cancel _ (by clear k2 h; omega), Int.toNat_natCast]

theorem ofNat_channel (r : UInt8) : F32.finite (ofNat r.toNat) = true ∧ (ofNat r.toNat).val = r.toNat * unit ∧ 0 ≤ (ofNat r.toNat).val ∧ (ofNat r.toNat).val.natAbs ≤ 2 ^ 20 * unit
    ∧ fl (ofNat r.toNat).val = (ofNat r.toNat).val := by
  have hr := r.toNat_lt
  obtain ⟨f1, f2⟩ := ofNat_small r.toNat (by omega)
  refine ⟨f1, f2, by rw [f2]; exact Int.mul_nonneg (by omega) (by omega), ?_, ?_⟩
  · rw [f2, Int.natAbs_mul, Int.natAbs_natCast, Int.natAbs_natCast]; exact Nat.mul_le_mul_right _ (by clear f1 f2; omega)
  · rw [f2, Int.mul_comm, fl_unit _ (by clear f1 f2; omega)]

theorem one_sub_zero {w : F32} (hw : F32.finite w = true) (h : w.val = 0) : F32.finite (one.sub w) = true ∧ (one.sub w).val = unit := by
  have hv := sub_close one_finite hw (by rw [one_unit, h]; have := unit_big; omega)
  refine ⟨hv.1, ?_⟩
  rw [hv.2.1, one_unit, h]; have := fl_unit 1 (by decide); rwa [Int.mul_one] at this

theorem one_sub_one {w : F32} (hw : F32.finite w = true) (h : w.val = unit) : F32.finite (one.sub w) = true ∧ (one.sub w).val = 0 := by
  have hv := sub_close one_finite hw (by rw [one_unit, h]; have := unit_big; omega)
  refine ⟨hv.1, ?_⟩
  rw [hv.2.1, one_unit, h, Int.sub_self]; exact fl_zero

theorem blendChannel_zero {r o : UInt8} {w : F32} (hw : F32.finite w = true) (h : w.val = 0) : blendChannel r o w = .ok r := by
  obtain ⟨v1, v2⟩ := one_sub_zero hw h
  obtain ⟨f1, f2, f3, f4, f5⟩ := ofNat_channel r
  have hp := mul_unit f1 v1 f3 v2
  have hp' := mul_le_left f1 v1 f3 (by rw [v2]; exact Int.natCast_nonneg _) (by rw [v2]; exact Int.le_refl _)
  obtain ⟨q1, q2⟩ := mul_zero_right (ofNat_channel o).1 hw h
  have ha := add_close hp'.1 q1 (by rw [hp, q2, Int.add_zero]; exact f4)
  exact toU8_exact ha.1 (by rw [ha.2.1, hp, q2, Int.add_zero, f5, f2])

theorem blendChannel_one {r o : UInt8} {w : F32} (hw : F32.finite w = true) (h : w.val = unit) : blendChannel r o w = .ok o := by
  obtain ⟨v1, v2⟩ := one_sub_one hw h
  obtain ⟨f1, f2, f3, f4, f5⟩ := ofNat_channel o
  have hp := mul_unit f1 hw f3 h
  have hp' := mul_le_left f1 hw f3 (by rw [h]; exact Int.natCast_nonneg _) (by rw [h]; exact Int.le_refl _)
  obtain ⟨q1, q2⟩ := mul_zero_right (ofNat_channel r).1 v1 v2
  have ha := add_close q1 hp'.1 (by rw [hp, q2, Int.zero_add]; exact f4)
  exact toU8_exact ha.1 (by rw [ha.2.1, hp, q2, Int.zero_add, f5, f2])

theorem blendChannel_nan {r o : UInt8} {w : F32} (h : w.isNan = true) : blendChannel r o w = .ub :=
  toU8_nan (add_nan_right _ (mul_nan_right _ h))

end Color
end Verif
