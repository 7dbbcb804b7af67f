import Verif.Lemmas.Hull6
/-! # Errors in multiples of `M/2^24` -/

namespace Verif
namespace F32

/-- Numbers of this size neither overflow nor vanish. -/
structure Scale (M : ℝ) : Prop where
  lo : 1 / 2 ^ 100 ≤ M
  hi : M ≤ 2 ^ 60

/-- `x` is finite, and `v` up to `k * M/2^24`. -/
structure Ap (M : ℝ) (x : F32) (v k : ℝ) : Prop where
  fin : F32.finite x = true
  close : |x.re - v| ≤ k * (M / 2 ^ 24)

variable {M : ℝ}

theorem Scale.pos (h : Scale M) : 0 < M := lt_of_lt_of_le (by norm_num) h.lo
theorem Scale.eps (h : Scale M) : 0 < M / 2 ^ 24 := _root_.div_pos h.pos (by norm_num)
theorem Scale.unit (h : Scale M) : 1 / (F32.unit : ℝ) ≤ M / 2 ^ 24 := by
  have h1 : (1 : ℝ) / F32.unit ≤ 1 / 2 ^ 124 := by
    apply one_div_le_one_div_of_le (by norm_num)
    have : 2 ^ 124 ≤ F32.unit := by rw [unit_pow]; exact Nat.pow_le_pow_right (by decide) (by decide)
    exact_mod_cast this
  have h2 : (1 : ℝ) / 2 ^ 100 / 2 ^ 24 ≤ M / 2 ^ 24 := div_le_div_of_nonneg_right h.lo (by norm_num)
  have h3 : (1 : ℝ) / 2 ^ 100 / 2 ^ 24 = 1 / 2 ^ 124 := by norm_num
  linarith

theorem Scale.one : Scale 1 := ⟨by norm_num, by norm_num⟩

theorem Ap.exact {x : F32} (h : F32.finite x = true) : Ap M x x.re 0 := ⟨h, by simp⟩
theorem Ap.weaken {x : F32} {v k l : ℝ} (hM : Scale M) (h : Ap M x v k) (hk : k ≤ l) : Ap M x v l :=
  ⟨h.fin, le_trans h.close (mul_le_mul_of_nonneg_right hk (le_of_lt hM.eps))⟩
theorem Ap.cong {x : F32} {v w k : ℝ} (h : Ap M x v k) (e : v = w) : Ap M x w k := e ▸ h
theorem Ap.neg {x : F32} {v k : ℝ} (h : Ap M x v k) : Ap M x.neg (-v) k :=
  ⟨neg_finite h.fin, by rw [neg_re, show -x.re - -v = -(x.re - v) by ring, abs_neg]; exact h.close⟩

theorem Ap.nonneg {x : F32} {v k : ℝ} (hM : Scale M) (h : Ap M x v k) : 0 ≤ k := by
  by_contra hn
  have := mul_neg_of_neg_of_pos (not_le.1 hn) hM.eps
  have := abs_nonneg (x.re - v)
  have := h.close
  linarith

/-- how large it is -/
theorem Ap.size {x : F32} {v k b : ℝ} (hM : Scale M) (h : Ap M x v k) (hv : |v| ≤ b * M) (hk : k ≤ 2 ^ 24) : |x.re| ≤ (b + 1) * M := by
  have h1 := abs_sub_abs_le_abs_sub x.re v
  have h2 := h.close
  have h3 : k * (M / 2 ^ 24) ≤ M := by
    rw [mul_div_assoc', div_le_iff₀ (by norm_num), _root_.mul_comm]
    exact mul_le_mul_of_nonneg_left hk (le_of_lt hM.pos)
  linarith

theorem Ap.add {x y : F32} {v w k l : ℝ} (b : ℝ) (hM : Scale M) (hx : Ap M x v k) (hy : Ap M y w l) (hb : |v + w| ≤ b * M) (hb' : b ≤ 2 ^ 20) (hk : k + l ≤ 2 ^ 24) :
    Ap M (x.add y) (v + w) (k + l + b + 1) := by
  have c1 := hx.close
  have c2 := hy.close
  have e0 := hM.eps
  have d : |x.re + y.re - (v + w)| ≤ (k + l) * (M / 2 ^ 24) := by
    rw [show x.re + y.re - (v + w) = (x.re - v) + (y.re - w) by ring]
    refine le_trans (abs_add_le _ _) ?_
    rw [add_mul]; linarith
  have s : |x.re + y.re| ≤ (b + 1) * M := by
    have h1 := abs_sub_abs_le_abs_sub (x.re + y.re) (v + w)
    have h3 : (k + l) * (M / 2 ^ 24) ≤ M := by
      rw [mul_div_assoc', div_le_iff₀ (by norm_num), _root_.mul_comm]
      exact mul_le_mul_of_nonneg_left hk (le_of_lt hM.pos)
    linarith
  have big : (b + 1) * M ≤ 2 ^ 100 := by
    calc (b + 1) * M ≤ (2 ^ 20 + 1) * M := mul_le_mul_of_nonneg_right (by linarith) (le_of_lt hM.pos)
      _ ≤ (2 ^ 20 + 1) * 2 ^ 60 := mul_le_mul_of_nonneg_left hM.hi (by norm_num)
      _ ≤ _ := by norm_num
  obtain ⟨f, r⟩ := re_add 100 (by decide) hx.fin hy.fin (le_trans s big)
  refine ⟨f, ?_⟩
  have t := abs_sub_le (x.add y).re (x.re + y.re) (v + w)
  have e1 : 1 / 2 ^ 24 * |x.re + y.re| ≤ (b + 1) * (M / 2 ^ 24) := by
    have := mul_le_mul_of_nonneg_left s (show (0 : ℝ) ≤ 1 / 2 ^ 24 by norm_num)
    refine le_trans this (le_of_eq ?_); ring
  have : (k + l + b + 1) * (M / 2 ^ 24) = (k + l) * (M / 2 ^ 24) + (b + 1) * (M / 2 ^ 24) := by ring
  rw [this]
  linarith

theorem Ap.sub {x y : F32} {v w k l : ℝ} (b : ℝ) (hM : Scale M) (hx : Ap M x v k) (hy : Ap M y w l) (hb : |v - w| ≤ b * M) (hb' : b ≤ 2 ^ 20) (hk : k + l ≤ 2 ^ 24) :
    Ap M (x.sub y) (v - w) (k + l + b + 1) := by
  have := Ap.add b hM hx hy.neg (by rw [← sub_eq_add_neg]; exact hb) hb' hk
  rw [← sub_eq_add_neg] at this
  exact this

/-- A product with a coefficient, itself a number near 1 with an error. -/
theorem Ap.mul {n x : F32} {c v j k : ℝ} (a b : ℝ) (hM : Scale M) (hn : Ap 1 n c j) (hx : Ap M x v k) (hc : |c| ≤ a) (hv : |v| ≤ b * M) (ha : a ≤ 2 ^ 10) (hb : b ≤ 2 ^ 10)
    (hj : j ≤ 2 ^ 24) (hk : k ≤ 2 ^ 24) : Ap M (n.mul x) (c * v) (j * (b + 1) + a * k + (a + 1) * (b + 1) + 1) := by
  have c1 : |n.re - c| ≤ j * (1 / 2 ^ 24) := hn.close
  have j0 := hn.nonneg Scale.one
  have k0 := hx.nonneg hM
  have a0 : 0 ≤ a := le_trans (abs_nonneg c) hc
  have e0 := hM.eps
  have m0 := hM.pos
  have b0 : 0 ≤ b := by
    by_contra hn'
    have := mul_neg_of_neg_of_pos (not_le.1 hn') m0
    have := abs_nonneg v
    linarith
  have sx := hx.size hM hv hk
  have sn : |n.re| ≤ a + 1 := by
    have := hn.size (b := a) Scale.one (by rw [mul_one]; exact hc) hj
    rwa [mul_one] at this
  have d : |n.re * x.re - c * v| ≤ (j * (b + 1) + a * k) * (M / 2 ^ 24) := by
    rw [show n.re * x.re - c * v = (n.re - c) * x.re + c * (x.re - v) by ring]
    refine le_trans (abs_add_le _ _) ?_
    rw [abs_mul, abs_mul]
    have t1 : |n.re - c| * |x.re| ≤ j * (1 / 2 ^ 24) * ((b + 1) * M) := mul_le_mul c1 sx (abs_nonneg _) (by positivity)
    have t2 : |c| * |x.re - v| ≤ a * (k * (M / 2 ^ 24)) := mul_le_mul hc hx.close (abs_nonneg _) a0
    have e : j * (1 / 2 ^ 24) * ((b + 1) * M) = j * (b + 1) * (M / 2 ^ 24) := by ring
    rw [e] at t1
    rw [add_mul]
    linarith
  have s : |n.re * x.re| ≤ (a + 1) * (b + 1) * M := by
    rw [abs_mul, mul_assoc]
    exact mul_le_mul sn sx (abs_nonneg _) (by linarith)
  have big : (a + 1) * (b + 1) * M ≤ 2 ^ 100 := by
    have : (a + 1) * (b + 1) ≤ (2 ^ 10 + 1) * (2 ^ 10 + 1) := mul_le_mul (by linarith) (by linarith) (by linarith) (by norm_num)
    calc (a + 1) * (b + 1) * M ≤ (2 ^ 10 + 1) * (2 ^ 10 + 1) * 2 ^ 60 := mul_le_mul this hM.hi (le_of_lt m0) (by norm_num)
      _ ≤ _ := by norm_num
  obtain ⟨f, r⟩ := re_mul hn.fin hx.fin (le_trans s big)
  refine ⟨f, ?_⟩
  have t := abs_sub_le (n.mul x).re (n.re * x.re) (c * v)
  have e1 : 1 / 2 ^ 24 * |n.re * x.re| ≤ (a + 1) * (b + 1) * (M / 2 ^ 24) := by
    have := mul_le_mul_of_nonneg_left s (show (0 : ℝ) ≤ 1 / 2 ^ 24 by norm_num)
    refine le_trans this (le_of_eq ?_); ring
  have u := hM.unit
  have : (j * (b + 1) + a * k + (a + 1) * (b + 1) + 1) * (M / 2 ^ 24) = (j * (b + 1) + a * k) * (M / 2 ^ 24) + (a + 1) * (b + 1) * (M / 2 ^ 24) + M / 2 ^ 24 := by ring
  rw [this]
  linarith

theorem Ap.half {x : F32} {v k b : ℝ} (hM : Scale M) (hx : Ap M x v k) (hv : |v| ≤ b * M) (hb : b ≤ 2 ^ 20) (hk : k ≤ 2 ^ 24) : Ap M x.half (v / 2) (k / 2 + (b + 1) / 2 + 1) := by
  have f2 : F32.finite two = true := by decide +kernel
  have r2 : two.re = 2 := by rw [re_cast, two_real]; norm_num
  have sx := hx.size hM hv hk
  have m0 := hM.pos
  have e0 := hM.eps
  have big : |x.re / two.re| ≤ 2 ^ 100 := by
    rw [r2, abs_div, abs_of_pos (by norm_num : (0 : ℝ) < 2), div_le_iff₀ (by norm_num)]
    calc |x.re| ≤ (b + 1) * M := sx
      _ ≤ (2 ^ 20 + 1) * M := mul_le_mul_of_nonneg_right (by linarith) (le_of_lt m0)
      _ ≤ (2 ^ 20 + 1) * 2 ^ 60 := mul_le_mul_of_nonneg_left hM.hi (by norm_num)
      _ ≤ _ := by norm_num
  obtain ⟨f, r⟩ := re_div hx.fin f2 (by rw [r2]; norm_num) big
  refine ⟨f, ?_⟩
  rw [r2] at r
  have u := hM.unit
  have t := abs_sub_le (x.div two).re (x.re / 2) (v / 2)
  have d : |x.re / 2 - v / 2| ≤ k / 2 * (M / 2 ^ 24) := by
    rw [show x.re / 2 - v / 2 = (x.re - v) / 2 by ring, abs_div, abs_of_pos (by norm_num : (0 : ℝ) < 2), div_le_iff₀ (by norm_num)]
    have := hx.close
    linarith
  have e1 : 1 / 2 ^ 24 * |x.re / 2| ≤ (b + 1) / 2 * (M / 2 ^ 24) := by
    rw [abs_div, abs_of_pos (by norm_num : (0 : ℝ) < 2)]
    have := mul_le_mul_of_nonneg_left sx (show (0 : ℝ) ≤ 1 / 2 ^ 24 / 2 by norm_num)
    calc 1 / 2 ^ 24 * (|x.re| / 2) = 1 / 2 ^ 24 / 2 * |x.re| := by ring
      _ ≤ 1 / 2 ^ 24 / 2 * ((b + 1) * M) := this
      _ = _ := by ring
  have : (k / 2 + (b + 1) / 2 + 1) * (M / 2 ^ 24) = k / 2 * (M / 2 ^ 24) + (b + 1) / 2 * (M / 2 ^ 24) + M / 2 ^ 24 := by ring
  show |(x.div two).re - v / 2| ≤ _
  rw [this]
  linarith

end F32
end Verif
