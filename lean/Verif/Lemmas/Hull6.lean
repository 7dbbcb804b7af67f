import Verif.Lemmas.Hull5
/-! # Directions on a raster of 64 cells -/

namespace Verif
namespace Hull

/-- both to the right -/
theorem cos_gap_right {x1 y1 x2 y2 : ℝ} (hx1 : 0 < x1) (hx2 : 0 < x2) (hy1 : 0 ≤ y1) (hy2 : 1 ≤ y2) (bx1 : x1 ≤ 64) (by1 : y1 ≤ 64) (bx2 : x2 ≤ 64) (by2 : y2 ≤ 64)
    (hc : 1 ≤ x1 * y2 - y1 * x2) :
    1 / 2 ^ 20 ≤ x1 / Real.sqrt (x1 * x1 + y1 * y1) - x2 / Real.sqrt (x2 * x2 + y2 * y2) := by
  have q1 : 0 < x1 * x1 + y1 * y1 := by positivity
  have q2 : 0 < x2 * x2 + y2 * y2 := by positivity
  have p1 := Real.sqrt_pos.2 q1
  have p2 := Real.sqrt_pos.2 q2
  have s1 := Real.mul_self_sqrt (le_of_lt q1)
  have s2 := Real.mul_self_sqrt (le_of_lt q2)
  have l1 : Real.sqrt (x1 * x1 + y1 * y1) ≤ x1 + y1 := by
    rw [Real.sqrt_le_left (by positivity)]; nlinarith [mul_nonneg (le_of_lt hx1) hy1]
  have l2 : Real.sqrt (x2 * x2 + y2 * y2) ≤ x2 + y2 := by
    rw [Real.sqrt_le_left (by positivity)]; nlinarith
  generalize Real.sqrt (x1 * x1 + y1 * y1) = n1 at *
  generalize Real.sqrt (x2 * x2 + y2 * y2) = n2 at *
  have y2p : 0 < y2 := by linarith
  rw [div_sub_div _ _ (ne_of_gt p1) (ne_of_gt p2), le_div_iff₀ (mul_pos p1 p2)]
  have A : 0 < x1 * n2 + x2 * n1 := by positivity
  -- the product with the conjugate
  have e : (x1 * n2 - n1 * x2) * (x1 * n2 + x2 * n1) = (x1 * y2 - y1 * x2) * (x1 * y2 + y1 * x2) := by
    have : (x1 * n2 - n1 * x2) * (x1 * n2 + x2 * n1) = x1 * x1 * (n2 * n2) - x2 * x2 * (n1 * n1) := by ring
    rw [this, s1, s2]; ring
  have k1 : x1 * y2 + y1 * x2 ≤ (x1 * n2 - n1 * x2) * (x1 * n2 + x2 * n1) := by
    rw [e]
    have : 0 ≤ x1 * y2 + y1 * x2 := by positivity
    nlinarith
  have k2 : n1 * n2 * (x1 * n2 + x2 * n1) ≤ 2 ^ 20 * (x1 * y2 + y1 * x2) := by
    have h1 : n1 * n2 * (x1 * n2 + x2 * n1) = x1 * n1 * (n2 * n2) + x2 * n2 * (n1 * n1) := by ring
    rw [h1, s1, s2]
    have a1 : x1 * n1 * (x2 * x2 + y2 * y2) ≤ x1 * (x1 + y1) * (x2 * x2 + y2 * y2) :=
      mul_le_mul_of_nonneg_right (mul_le_mul_of_nonneg_left l1 (le_of_lt hx1)) (le_of_lt q2)
    have a2 : x2 * n2 * (x1 * x1 + y1 * y1) ≤ x2 * (x2 + y2) * (x1 * x1 + y1 * y1) :=
      mul_le_mul_of_nonneg_right (mul_le_mul_of_nonneg_left l2 (le_of_lt hx2)) (le_of_lt q1)
    have P : 0 ≤ x1 * y2 := by positivity
    have Q : 0 ≤ y1 * x2 := by positivity
    -- each term is a multiple of `x1 * y2` or `y1 * x2`
    have t1 : x1 * x1 * (x2 * x2) ≤ 64 * 64 * 64 * (x1 * y2) := by
      have u1 : x1 * (x2 * x2) ≤ 64 * (64 * 64) := mul_le_mul bx1 (mul_le_mul bx2 bx2 (le_of_lt hx2) (by norm_num)) (by positivity) (by norm_num)
      have u2 : x1 * 1 ≤ x1 * y2 := mul_le_mul_of_nonneg_left hy2 (le_of_lt hx1)
      calc x1 * x1 * (x2 * x2) = (x1 * (x2 * x2)) * (x1 * 1) := by ring
        _ ≤ (64 * (64 * 64)) * (x1 * y2) := mul_le_mul u1 u2 (by positivity) (by norm_num)
        _ = _ := by ring
    have sq : ∀ {a b : ℝ}, 0 ≤ a → 0 ≤ b → a ≤ 64 → b ≤ 64 → a * b ≤ 64 * 64 := fun h1 h2 h3 h4 => mul_le_mul h3 h4 h2 (by norm_num)
    have m1 := mul_le_mul_of_nonneg_right (sq (le_of_lt hx1) (le_of_lt y2p) bx1 by2) P
    have m2 := mul_le_mul_of_nonneg_right (sq (le_of_lt hx1) (le_of_lt hx2) bx1 bx2) Q
    have m3 := mul_le_mul_of_nonneg_right (sq hy1 (le_of_lt y2p) by1 by2) P
    have m4 := mul_le_mul_of_nonneg_right (sq (le_of_lt hx2) hy1 bx2 by1) Q
    have m5 := mul_le_mul_of_nonneg_right (sq (le_of_lt hx2) (le_of_lt hx1) bx2 bx1) P
    have m6 := mul_le_mul_of_nonneg_right (sq (le_of_lt y2p) hy1 by2 by1) Q
    norm_num at *
    linarith
  rw [div_mul_eq_mul_div, one_mul, div_le_iff₀ (by norm_num)]
  have k3 : n1 * n2 * (x1 * n2 + x2 * n1) ≤ (x1 * n2 - n1 * x2) * 2 ^ 20 * (x1 * n2 + x2 * n1) := by linarith
  exact le_of_mul_le_mul_right k3 A

theorem cos_gap {x1 y1 x2 y2 : ℤ} (u1 : 0 < y1 ∨ (y1 = 0 ∧ 0 < x1)) (u2 : 0 < y2 ∨ (y2 = 0 ∧ 0 < x2))
    (bx1 : x1.natAbs ≤ 64) (by1 : y1.natAbs ≤ 64) (bx2 : x2.natAbs ≤ 64) (by2 : y2.natAbs ≤ 64) (hc : 0 < x1 * y2 - y1 * x2) :
    1 / 2 ^ 20 ≤ (x1 : ℝ) / Real.sqrt (x1 * x1 + y1 * y1) - x2 / Real.sqrt (x2 * x2 + y2 * y2) := by
  have hy1 : 0 ≤ y1 := by omega
  have hy2 : 0 ≤ y2 := by omega
  have hc' : (1 : ℝ) ≤ x1 * y2 - y1 * x2 := by exact_mod_cast hc
  have cast : ∀ {a : ℤ}, a.natAbs ≤ 64 → (a : ℝ) ≤ 64 ∧ (-64 : ℝ) ≤ a := by
    intro a ha
    have h1 : a ≤ 64 := by omega
    have h2 : -64 ≤ a := by omega
    exact ⟨by exact_mod_cast h1, by exact_mod_cast h2⟩
  have c1 := cast bx1; have c2 := cast by1; have c3 := cast bx2; have c4 := cast by2
  -- one to the right, the other not
  have split : ∀ {a1 b1 a2 b2 : ℤ}, (1 : ℤ) ≤ a1 → a2 ≤ 0 → 0 ≤ b1 → (a1 : ℝ) ≤ 64 → (b1 : ℝ) ≤ 64 →
      1 / 2 ^ 20 ≤ (a1 : ℝ) / Real.sqrt (a1 * a1 + b1 * b1) - a2 / Real.sqrt (a2 * a2 + b2 * b2) := by
    intro a1 b1 a2 b2 h1 h2 h3 h4 h5
    have h1' : (1 : ℝ) ≤ a1 := by exact_mod_cast h1
    have h2' : (a2 : ℝ) ≤ 0 := by exact_mod_cast h2
    have h3' : (0 : ℝ) ≤ b1 := by exact_mod_cast h3
    have n2 : (a2 : ℝ) / Real.sqrt (a2 * a2 + b2 * b2) ≤ 0 := div_nonpos_of_nonpos_of_nonneg h2' (Real.sqrt_nonneg _)
    have n1 : 1 / 2 ^ 20 ≤ (a1 : ℝ) / Real.sqrt (a1 * a1 + b1 * b1) := by
      have hp : 0 < (a1 * a1 + b1 * b1 : ℝ) := by positivity
      rw [le_div_iff₀ (Real.sqrt_pos.2 hp)]
      have : Real.sqrt (a1 * a1 + b1 * b1 : ℝ) ≤ 128 := by
        rw [Real.sqrt_le_left (by norm_num)]; nlinarith
      norm_num
      linarith
    linarith
  rcases lt_or_ge 0 x1 with hx1 | hx1
  · rcases lt_or_ge 0 x2 with hx2 | hx2
    · have h2 : 1 ≤ y2 := by
        have : 0 ≤ y1 * x2 := mul_nonneg hy1 (le_of_lt hx2)
        by_contra hn
        have : y2 = 0 := by omega
        rw [this] at hc
        omega
      exact cos_gap_right (by exact_mod_cast hx1) (by exact_mod_cast hx2) (by exact_mod_cast hy1) (by exact_mod_cast h2) c1.1 c2.1 c3.1 c4.1 hc'
    · exact split hx1 hx2 hy1 c1.1 c2.1
  · have hx2 : x2 < 0 := by
      by_contra hn
      have := mul_nonneg hy1 (not_lt.1 hn)
      have := mul_nonpos_of_nonpos_of_nonneg hx1 hy2
      omega
    -- the mirror image
    have m : ∀ a b : ℤ, ((-a : ℤ) : ℝ) / Real.sqrt (((-a : ℤ) : ℝ) * ((-a : ℤ) : ℝ) + b * b) = - ((a : ℝ) / Real.sqrt (a * a + b * b)) := by
      intro a b; push_cast; rw [neg_mul_neg, neg_div]
    have goal : 1 / 2 ^ 20 ≤ ((-x2 : ℤ) : ℝ) / Real.sqrt (((-x2 : ℤ) : ℝ) * ((-x2 : ℤ) : ℝ) + y2 * y2) -
        ((-x1 : ℤ) : ℝ) / Real.sqrt (((-x1 : ℤ) : ℝ) * ((-x1 : ℤ) : ℝ) + y1 * y1) := by
      have d2 : ((-x2 : ℤ) : ℝ) ≤ 64 := by push_cast; linarith [c3.2]
      rcases lt_or_ge x1 0 with h | h
      · have h1 : 1 ≤ y1 := by omega
        refine cos_gap_right ?_ ?_ (by exact_mod_cast hy2) (by exact_mod_cast h1) d2 c4.1 (by push_cast; linarith [c1.2]) c2.1 ?_
        · have : 0 < -x2 := by omega
          exact_mod_cast this
        · have : 0 < -x1 := by omega
          exact_mod_cast this
        · push_cast; linarith
      · exact split (by omega) (by omega) hy2 d2 c4.1
    rw [m, m] at goal
    linarith

theorem cosine_cells {g : Nat} {p r : V3f} {k1 k2 : ℤ} (e1 : p.coord .x - r.coord .x = 2 ^ g * k1) (e2 : p.coord .y - r.coord .y = 2 ^ g * k2) :
    r.cosine p = (k1 : ℝ) / Real.sqrt (k1 * k1 + k2 * k2) := by
  unfold V3f.cosine
  dsimp only
  have d1 : ((p.coord .x : ℝ) - r.coord .x) = 2 ^ g * k1 := by exact_mod_cast e1
  have d2 : ((p.coord .y : ℝ) - r.coord .y) = 2 ^ g * k2 := by exact_mod_cast e2
  rw [d1, d2]
  have hp : (0 : ℝ) < 2 ^ g := by positivity
  have e : (2 : ℝ) ^ g * k1 * (2 ^ g * k1) + 2 ^ g * k2 * (2 ^ g * k2) = (2 ^ g * 2 ^ g) * (k1 * k1 + k2 * k2) := by ring
  rw [e, Real.sqrt_mul (by positivity), Real.sqrt_mul_self (le_of_lt hp), mul_div_mul_left _ _ (ne_of_gt hp)]

theorem separated_of_fanned {g : Nat} {ps : List V3f} (h : Raster g 64 ps) (hf : Fanned ps) : Separated ps := by
  refine ⟨hf.apart, ?_⟩
  intro r hl i hi j hj ir jr ij
  have t := hf.directions r hl i hi j hj ir jr ij
  have ui := upper_of hl hi (hf.apart r hl i hi ir)
  have uj := upper_of hl hj (hf.apart r hl j hj jr)
  obtain ⟨a1, e1, l1⟩ := h.diffX (pt_mem hi) (pt_mem hl.1)
  obtain ⟨b1, e2, l2⟩ := h.diffY (pt_mem hi) (pt_mem hl.1)
  obtain ⟨a2, e3, l3⟩ := h.diffX (pt_mem hj) (pt_mem hl.1)
  obtain ⟨b2, e4, l4⟩ := h.diffY (pt_mem hj) (pt_mem hl.1)
  rw [cosine_cells e1 e2, cosine_cells e3 e4]
  have hp : (0 : ℤ) < 2 ^ g := by positivity
  have up : ∀ {k : Nat} {a b : ℤ}, relX ps r k = 2 ^ g * a → relY ps r k = 2 ^ g * b → Graham.Upper (relX ps r) (relY ps r) k → 0 < b ∨ (b = 0 ∧ 0 < a) := by
    intro k a b ea eb hu
    unfold Graham.Upper at hu
    rw [ea, eb] at hu
    rcases hu with hu | ⟨hu, hu'⟩
    · exact Or.inl (pos_of_mul_pos_right hu (le_of_lt hp))
    · exact Or.inr ⟨by rcases mul_eq_zero.1 hu with h | h <;> omega, pos_of_mul_pos_right hu' (le_of_lt hp)⟩
  have u1 := up e1 e2 ui
  have u2 := up e3 e4 uj
  have et : (pt ps r).turn (pt ps i) (pt ps j) = (2 ^ g * 2 ^ g) * (a1 * b2 - b1 * a2) := by
    unfold V3f.turn; rw [e1, e2, e3, e4]; ring
  have hn : a1 * b2 - b1 * a2 ≠ 0 := by intro h0; rw [et, h0, mul_zero] at t; exact t rfl
  rcases lt_or_gt_of_ne hn with h0 | h0
  · have := cos_gap u2 u1 l3 l4 l1 l2 (by linarith)
    rw [abs_sub_comm]
    exact le_trans this (le_abs_self _)
  · have := cos_gap u1 u2 l1 l2 l3 l4 h0
    exact le_trans this (le_abs_self _)

end Hull
end Verif
