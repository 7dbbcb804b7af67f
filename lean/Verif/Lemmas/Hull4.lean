import Verif.Spec.HullReal
import Verif.Lemmas.Real32
import Verif.Lemmas.Graham
/-! # How exact the angles are -/

namespace Verif
namespace F32

/-- A coordinate divided by the norm. -/
theorem over_norm {x z : F32} (hx : F32.finite x = true) (hz : F32.finite z = true) (pz : 0 < z.re) (hle : |x.re| ≤ Real.sqrt z.re) :
    F32.finite (x.div z.sqrt) = true ∧ |(x.div z.sqrt).re - x.re / Real.sqrt z.re| ≤ 1 / 2 ^ 23 + 1 / 2 ^ 40 := by
  obtain ⟨f1, h1⟩ := re_sqrt hz pz
  have ps : 0 < Real.sqrt z.re := Real.sqrt_pos.2 pz
  generalize Real.sqrt z.re = S at *
  generalize hs : z.sqrt.re = s at *
  have b1 : |s - S| ≤ (1 / 2 ^ 24 + 1 / 2 ^ 60) * S := h1
  rw [abs_le] at b1
  have sp : (1 - (1 / 2 ^ 24 + 1 / 2 ^ 60)) * S ≤ s := by linarith
  have s0 : 0 < s := lt_of_lt_of_le (mul_pos (by norm_num) ps) sp
  -- the quotient of the rounded root
  have q1 : |x.re / s - x.re / S| ≤ 1 / 2 ^ 24 + 1 / 2 ^ 46 := by
    have e : x.re / s - x.re / S = (x.re / S) * ((S - s) / s) := by field_simp
    rw [e, abs_mul, abs_div, abs_div, abs_of_pos ps, abs_of_pos s0]
    have l1 : |x.re| / S ≤ 1 := (_root_.div_le_one ps).2 hle
    have l2 : |S - s| / s ≤ 1 / 2 ^ 24 + 1 / 2 ^ 46 := by
      rw [div_le_iff₀ s0, abs_sub_comm]
      refine le_trans h1 (le_trans ?_ (mul_le_mul_of_nonneg_left sp (by norm_num)))
      rw [← mul_assoc]
      exact mul_le_mul_of_nonneg_right (by norm_num) (le_of_lt ps)
    calc |x.re| / S * (|S - s| / s) ≤ 1 * (1 / 2 ^ 24 + 1 / 2 ^ 46) := mul_le_mul l1 l2 (div_nonneg (abs_nonneg _) (le_of_lt s0)) (by norm_num)
      _ = _ := one_mul _
  have q0 : |x.re / S| ≤ 1 := by rw [abs_div, abs_of_pos ps]; exact (_root_.div_le_one ps).2 hle
  have q2 : |x.re / s| ≤ 1 + 1 / 2 ^ 23 := by
    have := abs_sub_abs_le_abs_sub (x.re / s) (x.re / S)
    norm_num at *
    linarith
  obtain ⟨f2, h2⟩ := re_div hx f1 (by rw [hs]; exact ne_of_gt s0) (by rw [hs]; exact le_trans q2 (by norm_num))
  refine ⟨f2, ?_⟩
  rw [hs] at h2
  have u : (1 : ℝ) / unit ≤ 1 / 2 ^ 100 := by
    apply one_div_le_one_div_of_le (by norm_num)
    have : 2 ^ 100 ≤ unit := by rw [unit_pow]; exact Nat.pow_le_pow_right (by decide) (by decide)
    exact_mod_cast this
  generalize (1 : ℝ) / unit = η at *
  have := abs_sub_le (x.div z.sqrt).re (x.re / s) (x.re / S)
  norm_num at *
  linarith

end F32

namespace Hull
open F32

set_option exponentiation.threshold 300

theorem one_minus {v : F32} {C : ℝ} (hv : F32.finite v = true) (hC : |C| ≤ 1) (h : |v.re - C| ≤ 1 / 2 ^ 23 + 1 / 2 ^ 40) :
    |(one.sub v).re - (1 - C)| ≤ 1 / 2 ^ 22 + 1 / 2 ^ 38 := by
  have f1 : F32.finite one = true := by decide +kernel
  have hb : |one.re - v.re| ≤ 2 + 1 / 2 ^ 22 := by
    rw [one_re]; rw [abs_le] at *; norm_num at *; constructor <;> linarith
  obtain ⟨f2, h2⟩ := re_sub 2 (by decide) f1 hv (le_trans hb (by norm_num))
  rw [one_re] at *
  have := abs_sub_le (one.sub v).re (1 - v.re) (1 - C)
  have e : 1 - v.re - (1 - C) = -(v.re - C) := by ring
  rw [e, abs_neg] at this
  norm_num at *
  linarith

/-- The squared distance, and the angle. -/
theorem angle_close {g D : Nat} {ps : List V3f} (ht : Tidy ps) (h : Raster g D ps) (h1 : 75 ≤ g) (h2 : g ≤ 200) (hD : D ≤ 2047) {p r : V3f} (hp : p ∈ ps) (hr : r ∈ ps)
    (hne : p.coord .x ≠ r.coord .x ∨ p.coord .y ≠ r.coord .y) : |r.cosine p| ≤ 1 ∧ |(getAngle p r).re - (1 - r.cosine p)| ≤ 1 / 2 ^ 22 + 1 / 2 ^ 38 := by
  obtain ⟨k1, e1, l1⟩ := h.diffX hp hr
  obtain ⟨k2, e2, l2⟩ := h.diffY hp hr
  obtain ⟨f1, v1⟩ := sub_cells (ht.finite p hp .x) (ht.finite r hr .x) h2 e1 (by omega)
  obtain ⟨f2, v2⟩ := sub_cells (ht.finite p hp .y) (ht.finite r hr .y) h2 e2 (by omega)
  have s1 := mul_small hD l1 l1
  have s2 := mul_small hD l2 l2
  obtain ⟨m1, w1⟩ := mul_cells f1 f1 v1 v1 h1 h2 (by omega)
  obtain ⟨m2, w2⟩ := mul_cells f2 f2 v2 v2 h1 h2 (by omega)
  generalize hdx : (p.at .x).sub (r.at .x) = dx at *
  generalize hdy : (p.at .y).sub (r.at .y) = dy at *
  have ed : p.head2.sub r.head2 = ⟨dx, dy⟩ := by rw [← hdx, ← hdy]; rfl
  obtain ⟨nz, vz⟩ := add_val m1 m2
  have zs : (k1 * k1 + k2 * k2).natAbs < 2 ^ 24 := by
    have := Int.natAbs_add_le (k1 * k1) (k2 * k2)
    omega
  rw [w1, w2, ← mul_add, fl_cells (by omega) _ zs] at vz
  have fz : F32.finite ((dx.mul dx).add (dy.mul dy)) = true := by
    rw [finite_iff_val nz, vz]
    exact Nat.lt_trans (cells_lt (by omega) _ zs) (Nat.pow_lt_pow_right (by decide) (by decide))
  generalize hz : (dx.mul dx).add (dy.mul dy) = z at *
  have hu := unitR_pos
  -- exact values
  have ex : dx.re * unit = (p.coord .x : ℝ) - r.coord .x := by rw [← val_re, v1, ← e1]; push_cast; ring
  have ey : dy.re * unit = (p.coord .y : ℝ) - r.coord .y := by rw [← val_re, v2, ← e2]; push_cast; ring
  have ez : z.re = dx.re * dx.re + dy.re * dy.re := by
    have q1 : z.val * (unit : Int) = dx.val * dx.val + dy.val * dy.val := by
      have t := two_pow_int (g := g) (k := 149) (by omega)
      have : ((unit : Nat) : Int) = (2 : Int) ^ 149 := by rw [unit_pow, Nat.cast_pow]; rfl
      rw [this, vz, v1, v2]
      rw [mul_four (2 ^ g) k1, mul_four (2 ^ g) k2, t]
      generalize (2 : Int) ^ (2 * g - 149) = A
      generalize (2 : Int) ^ 149 = B
      ring
    have q2 : (z.val : ℝ) * unit = (dx.val : ℝ) * dx.val + (dy.val : ℝ) * dy.val := by exact_mod_cast q1
    rw [val_re, val_re, val_re] at q2
    have hp2 : (unit * unit : ℝ) ≠ 0 := ne_of_gt (mul_pos hu hu)
    have q3 : z.re * (unit * unit : ℝ) = (dx.re * dx.re + dy.re * dy.re) * (unit * unit) := by linarith
    exact mul_right_cancel₀ hp2 q3
  have pz : 0 < z.re := by
    rw [ez]
    have ne : dx.re ≠ 0 ∨ dy.re ≠ 0 := by
      rcases hne with hne | hne
      · left; intro h0; rw [h0] at ex
        apply hne
        have : (p.coord .x : ℝ) = r.coord .x := by linarith
        exact_mod_cast this
      · right; intro h0; rw [h0] at ey
        apply hne
        have : (p.coord .y : ℝ) = r.coord .y := by linarith
        exact_mod_cast this
    rcases ne with ne | ne
    · have := mul_self_pos.2 ne; have := mul_self_nonneg dy.re; linarith
    · have := mul_self_pos.2 ne; have := mul_self_nonneg dx.re; linarith
  have hle : |dx.re| ≤ Real.sqrt z.re := by
    rw [← Real.sqrt_mul_self_eq_abs]
    apply Real.sqrt_le_sqrt
    rw [ez]; have := mul_self_nonneg dy.re; linarith
  obtain ⟨g1, g2⟩ := over_norm f1 fz pz hle
  have ec : r.cosine p = dx.re / Real.sqrt z.re := by
    unfold V3f.cosine
    dsimp only
    rw [← ex, ← ey]
    have : dx.re * unit * (dx.re * unit) + dy.re * unit * (dy.re * unit) = z.re * (unit * unit) := by rw [ez]; ring
    rw [this, Real.sqrt_mul (le_of_lt pz), Real.sqrt_mul_self (le_of_lt hu), mul_div_mul_right _ _ (ne_of_gt hu)]
  have hC : |r.cosine p| ≤ 1 := by
    rw [ec, abs_div, abs_of_pos (Real.sqrt_pos.2 pz)]; exact (div_le_one (Real.sqrt_pos.2 pz)).2 hle
  refine ⟨hC, ?_⟩
  rw [← ec] at g2
  have ea : getAngle p r = one.sub (dx.div z.sqrt) := by
    unfold getAngle
    rw [ed]
    unfold V2f.normalized V2f.dot
    dsimp only
    rw [hz, if_pos]
    have z0 : isNan (0 : F32) = false := by decide +kernel
    have z1 : val (0 : F32) = 0 := by decide +kernel
    rw [lt_iff z0 (finite_notNan fz), z1]
    exact re_pos.2 pz
  rw [ea]
  exact one_minus g1 hC g2

end Hull
end Verif
