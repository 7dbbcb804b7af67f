import Verif.Lemmas.Hull8
/-! # One edge of the hull: the corners of the rectangle -/

namespace Verif
namespace Hull
open F32

theorem inv_ap {d : F32} (h : Ap 1 d (-1) 30) : Ap 1 (F32.one.div d) (-1) 33 := by
  have f1 : F32.finite one = true := by decide +kernel
  have c : |d.re - -1| ≤ 30 * (1 / 2 ^ 24) := h.close
  have c' := abs_le.1 c
  have dneg : d.re < 0 := by norm_num at c' ⊢; linarith [c'.2]
  have lo : 1 - 30 * (1 / 2 ^ 24) ≤ -d.re := by linarith [c'.2]
  have q : |one.re / d.re - -1| ≤ 31 * (1 / 2 ^ 24) := by
    rw [one_re, show 1 / d.re - -1 = (d.re - -1) / d.re by have := ne_of_lt dneg; field_simp; ring, abs_div, abs_of_neg dneg, div_le_iff₀ (by linarith)]
    refine le_trans c ?_
    have := mul_le_mul_of_nonneg_left lo (show (0 : ℝ) ≤ 31 * (1 / 2 ^ 24) by norm_num)
    refine le_trans ?_ this
    norm_num
  have qs : |one.re / d.re| ≤ 1 + 31 * (1 / 2 ^ 24) := by
    have := abs_le.1 q
    rw [abs_le]; constructor <;> linarith
  obtain ⟨f, r⟩ := re_div f1 h.fin (ne_of_lt dneg) (le_trans qs (by norm_num))
  refine ⟨f, ?_⟩
  have t := abs_sub_le (one.div d).re (one.re / d.re) (-1)
  have u := Scale.one.unit
  have e : 1 / 2 ^ 24 * |one.re / d.re| ≤ 1 / 2 ^ 24 * (1 + 31 * (1 / 2 ^ 24)) := mul_le_mul_of_nonneg_left qs (by norm_num)
  have u' : (1 : ℝ) / unit ≤ 1 / 2 ^ 60 := by
    apply one_div_le_one_div_of_le (by norm_num)
    have : 2 ^ 60 ≤ F32.unit := by rw [unit_pow]; exact Nat.pow_le_pow_right (by decide) (by decide)
    exact_mod_cast this
  have n : (31 : ℝ) * (1 / 2 ^ 24) + (1 / 2 ^ 24 * (1 + 31 * (1 / 2 ^ 24)) + 1 / 2 ^ 60) ≤ 33 * (1 / 2 ^ 24) := by norm_num
  linarith

variable {n : V2f} {cx cy M : ℝ}

theorem Dir.det (h : Dir n cx cy) : Ap 1 (((across n).x.mul n.y).sub (n.x.mul (across n).y)) (-1) 30 := by
  obtain ⟨a1, a2⟩ := h.cross
  have hb := h.by'
  have hb' : |cy| ≤ 1 * 1 := by linarith
  have hx' : |cx| ≤ 1 * 1 := by linarith [h.bx]
  have p1 := Ap.mul 1 1 Scale.one a1 h.ay (by rw [abs_neg]; exact hb) hb' (by norm_num) (by norm_num) (by norm_num) (by norm_num)
  have p2 := Ap.mul 1 1 Scale.one h.ax a2 h.bx hx' (by norm_num) (by norm_num) (by norm_num) (by norm_num)
  have e : -cy * cy - cx * cx = -1 := by have := h.one; linarith
  have := Ap.sub 1 Scale.one p1 p2 (by rw [e]; norm_num) (by norm_num) (by norm_num)
  exact (this.cong e).weaken Scale.one (by norm_num)

theorem coef_ap {a i : F32} {α : ℝ} (ha : Ap 1 a α 3) (la : |α| ≤ 1) (hi : Ap 1 i (-1) 33) : Ap 1 (a.mul i) (-α) 44 := by
  have := Ap.mul 1 1 Scale.one ha hi la (by norm_num) (by norm_num) (by norm_num) (by norm_num) (by norm_num)
  exact (this.cong (by ring)).weaken Scale.one (by norm_num)

theorem comb_ap {a b x y : F32} {α β u v : ℝ} (hM : Scale M) (ha : Ap 1 a α 44) (hb : Ap 1 b β 44) (la : |α| ≤ 1) (lb : |β| ≤ 1) (hx : Ap M x u 33) (hy : Ap M y v 33)
    (lx : |u| ≤ 7 * M) (ly : |v| ≤ 7 * M) : Ap M ((a.mul x).add (b.mul y)) (α * u + β * v) 819 ∧ |α * u + β * v| ≤ 14 * M := by
  have m0 := hM.pos
  have p1 := Ap.mul 1 7 hM ha hx la lx (by norm_num) (by norm_num) (by norm_num) (by norm_num)
  have p2 := Ap.mul 1 7 hM hb hy lb ly (by norm_num) (by norm_num) (by norm_num) (by norm_num)
  have s : |α * u + β * v| ≤ 14 * M := by
    refine le_trans (abs_add_le _ _) ?_
    rw [abs_mul, abs_mul]
    have t1 : |α| * |u| ≤ 1 * (7 * M) := mul_le_mul la lx (abs_nonneg _) (by norm_num)
    have t2 : |β| * |v| ≤ 1 * (7 * M) := mul_le_mul lb ly (abs_nonneg _) (by norm_num)
    linarith
  exact ⟨(Ap.add 14 hM p1 p2 s (by norm_num) (by norm_num)).weaken hM (by norm_num), s⟩

theorem Dir.solve (h : Dir n cx cy) (hM : Scale M) {b : V2f} {u v : ℝ} (hx : Ap M b.x u 33) (hy : Ap M b.y v 33) (lx : |u| ≤ 7 * M) (ly : |v| ≤ 7 * M) :
    (Ap M (solve (across n) n b).x (cy * u - cx * v) 819 ∧ |cy * u - cx * v| ≤ 14 * M) ∧
    (Ap M (Hull.solve (across n) n b).y (-cx * u - cy * v) 819 ∧ |-cx * u - cy * v| ≤ 14 * M) := by
  obtain ⟨a1, a2⟩ := h.cross
  have i := inv_ap h.det
  have lx' : |-cx| ≤ 1 := by rw [abs_neg]; exact h.bx
  have ly' : |-cy| ≤ 1 := by rw [abs_neg]; exact h.by'
  have k00 := (coef_ap h.ay h.by' i).neg
  have k10 := (coef_ap h.ax.neg lx' i).neg
  have k01 := (coef_ap a2.neg lx' i).neg
  have k11 := (coef_ap a1 ly' i).neg
  rw [neg_neg] at k00 k10 k01 k11
  constructor
  · have := comb_ap hM k00 k01 h.by' lx' hx hy lx ly
    rw [show cy * u + -cx * v = cy * u - cx * v by ring] at this
    exact this
  · have := comb_ap hM k10 k11 lx' ly' hx hy lx ly
    rw [show -cx * u + -cy * v = -cx * u - cy * v by ring] at this
    exact this

/-- The point at given distances from the two lines. -/
noncomputable def corner (cx cy : ℝ) (c : V2f) (w h : ℝ) : ℝ × ℝ := (c.x.re + cx * h - cy * w, c.y.re + cy * h + cx * w)

/-- A computed corner. -/
theorem Dir.corner_ap (h : Dir n cx cy) (hM : Scale M) {c : V2f} (hc : In M c) {w t : F32} (fw : F32.finite w = true) (ft : F32.finite t = true)
    (bw : |w.re| ≤ 5 * M) (bt : |t.re| ≤ 5 * M) {b : V2f} (hx : b.x = ((across n).dot c).neg.sub w ∨ (b.x = ((across n).dot c).neg ∧ w.re = 0))
    (hy : b.y = (n.dot c).neg.sub t) :
    (Ap M (Hull.solve (across n) n b).x (corner cx cy c w.re t.re).1 819 ∧ |(corner cx cy c w.re t.re).1| ≤ 14 * M) ∧
    (Ap M (Hull.solve (across n) n b).y (corner cx cy c w.re t.re).2 819 ∧ |(corner cx cy c w.re t.re).2| ≤ 14 * M) := by
  obtain ⟨w1, w2⟩ := h.bw hM hc
  obtain ⟨h1, h2⟩ := h.bh hM hc
  have sw : |-(-cy * c.x.re + cx * c.y.re) - w.re| ≤ 7 * M := by
    refine le_trans (abs_sub _ _) ?_; linarith
  have st : |-(cx * c.x.re + cy * c.y.re) - t.re| ≤ 7 * M := by
    refine le_trans (abs_sub _ _) ?_; linarith
  have ax : Ap M b.x (-(-cy * c.x.re + cx * c.y.re) - w.re) 33 := by
    rcases hx with hx | ⟨hx, h0⟩
    · rw [hx]; exact (Ap.sub 7 hM w1 (Ap.exact fw) sw (by norm_num) (by norm_num)).weaken hM (by norm_num)
    · rw [hx, h0, sub_zero]; exact w1.weaken hM (by norm_num)
  have ay : Ap M b.y (-(cx * c.x.re + cy * c.y.re) - t.re) 33 := by
    rw [hy]; exact (Ap.sub 7 hM h1 (Ap.exact ft) st (by norm_num) (by norm_num)).weaken hM (by norm_num)
  have := h.solve hM ax ay sw st
  have o := h.one
  have e1 : cy * (-(-cy * c.x.re + cx * c.y.re) - w.re) - cx * (-(cx * c.x.re + cy * c.y.re) - t.re) = (corner cx cy c w.re t.re).1 := by
    unfold corner
    calc _ = (cx * cx + cy * cy) * c.x.re + cx * t.re - cy * w.re := by ring
      _ = _ := by rw [o]; ring
  have e2 : -cx * (-(-cy * c.x.re + cx * c.y.re) - w.re) - cy * (-(cx * c.x.re + cy * c.y.re) - t.re) = (corner cx cy c w.re t.re).2 := by
    unfold corner
    calc _ = (cx * cx + cy * cy) * c.y.re + cy * t.re + cx * w.re := by ring
      _ = _ := by rw [o]; ring
  rw [e1, e2] at this
  exact this

end Hull
end Verif
