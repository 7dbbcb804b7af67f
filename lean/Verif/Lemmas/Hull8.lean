import Verif.Lemmas.Hull7
set_option exponentiation.threshold 300
/-! # One edge of the hull: directions, distances and corners, up to rounding -/

namespace Verif
namespace Hull
open F32

/-- A unit vector up to rounding. -/
structure Dir (n : V2f) (cx cy : ℝ) : Prop where
  one : cx * cx + cy * cy = 1
  ax : Ap 1 n.x cx 3
  ay : Ap 1 n.y cy 3

theorem abs_le_one {a b : ℝ} (h : a * a + b * b = 1) : |a| ≤ 1 := by
  rw [← abs_one, ← sq_le_sq]
  have := mul_self_nonneg b
  rw [pow_two, pow_two]; linarith

variable {n : V2f} {cx cy : ℝ}

theorem Dir.bx (h : Dir n cx cy) : |cx| ≤ 1 := abs_le_one h.one
theorem Dir.by' (h : Dir n cx cy) : |cy| ≤ 1 := abs_le_one (by have := h.one; linarith : cy * cy + cx * cx = 1)

/-- The direction from one point of a raster to another. -/
theorem dir_of {g D : Nat} {ps : List V3f} (ht : Tidy ps) (h : Raster g D ps) (h1 : 75 ≤ g) (h2 : g ≤ 200) (hD : D ≤ 2047) {p r : V3f} (hp : p ∈ ps) (hr : r ∈ ps)
    (hne : p.coord .x ≠ r.coord .x ∨ p.coord .y ≠ r.coord .y) :
    ∃ cx cy L : ℝ, 0 < L ∧ p.x.re - r.x.re = L * cx ∧ p.y.re - r.y.re = L * cy ∧ Dir (p.head2.sub r.head2).normalized cx cy := by
  obtain ⟨k1, e1, l1⟩ := h.diffX hp hr
  obtain ⟨k2, e2, l2⟩ := h.diffY hp hr
  obtain ⟨f1, v1⟩ := sub_cells (ht.finite p hp .x) (ht.finite r hr .x) h2 e1 (by omega)
  obtain ⟨f2, v2⟩ := sub_cells (ht.finite p hp .y) (ht.finite r hr .y) h2 e2 (by omega)
  have s1 := mul_small hD l1 l1
  have s2 := mul_small hD l2 l2
  obtain ⟨m1, w1⟩ := mul_cells f1 f1 v1 v1 h1 h2 (by omega)
  obtain ⟨m2, w2⟩ := mul_cells f2 f2 v2 v2 h1 h2 (by omega)
  generalize hdx : (p.at .x).sub (r.at .x) = dx at *
  generalize hdy : (p.at .y).sub (r.at .y) = dy at *
  have ed : p.head2.sub r.head2 = ⟨dx, dy⟩ := by rw [← hdx, ← hdy]; rfl
  obtain ⟨nz, vz⟩ := add_val m1 m2
  have zs : (k1 * k1 + k2 * k2).natAbs < 2 ^ 24 := by
    have := Int.natAbs_add_le (k1 * k1) (k2 * k2)
    omega
  rw [w1, w2, ← mul_add, fl_cells (by omega) _ zs] at vz
  have fz : F32.finite ((dx.mul dx).add (dy.mul dy)) = true := by
    rw [finite_iff_val nz, vz]
    exact Nat.lt_trans (cells_lt (by omega) _ zs) (Nat.pow_lt_pow_right (by decide) (by decide))
  generalize hz : (dx.mul dx).add (dy.mul dy) = z at *
  have hu := unitR_pos
  have ex : dx.re = p.x.re - r.x.re := by
    have : dx.val = p.x.val - r.x.val := by rw [v1, ← e1]; rfl
    rw [re_eq, re_eq, re_eq, this]; push_cast; ring
  have ey : dy.re = p.y.re - r.y.re := by
    have : dy.val = p.y.val - r.y.val := by rw [v2, ← e2]; rfl
    rw [re_eq, re_eq, re_eq, this]; push_cast; ring
  have ez : z.re = dx.re * dx.re + dy.re * dy.re := by
    have q1 : z.val * (unit : Int) = dx.val * dx.val + dy.val * dy.val := by
      have t := two_pow_int (g := g) (k := 149) (by omega)
      have : ((unit : Nat) : Int) = (2 : Int) ^ 149 := by rw [unit_pow, Nat.cast_pow]; rfl
      rw [this, vz, v1, v2]
      rw [mul_four (2 ^ g) k1, mul_four (2 ^ g) k2, t]
      generalize (2 : Int) ^ (2 * g - 149) = A
      generalize (2 : Int) ^ 149 = B
      ring
    have q2 : (z.val : ℝ) * unit = (dx.val : ℝ) * dx.val + (dy.val : ℝ) * dy.val := by exact_mod_cast q1
    rw [val_re, val_re, val_re] at q2
    have hp2 : (unit * unit : ℝ) ≠ 0 := ne_of_gt (mul_pos hu hu)
    have q3 : z.re * (unit * unit : ℝ) = (dx.re * dx.re + dy.re * dy.re) * (unit * unit) := by linarith
    exact mul_right_cancel₀ hp2 q3
  have pz : 0 < z.re := by
    rw [ez]
    have ne : dx.re ≠ 0 ∨ dy.re ≠ 0 := by
      rcases hne with hne | hne
      · left; intro h0; rw [ex] at h0
        apply hne
        show p.x.val = r.x.val
        have : (p.x.val : ℝ) = r.x.val := by rw [val_re, val_re]; rw [sub_eq_zero.1 h0]
        exact_mod_cast this
      · right; intro h0; rw [ey] at h0
        apply hne
        show p.y.val = r.y.val
        have : (p.y.val : ℝ) = r.y.val := by rw [val_re, val_re]; rw [sub_eq_zero.1 h0]
        exact_mod_cast this
    rcases ne with ne | ne
    · have := mul_self_pos.2 ne; have := mul_self_nonneg dy.re; linarith
    · have := mul_self_pos.2 ne; have := mul_self_nonneg dx.re; linarith
  have hle : |dx.re| ≤ Real.sqrt z.re := by
    rw [← Real.sqrt_mul_self_eq_abs]
    apply Real.sqrt_le_sqrt
    rw [ez]; have := mul_self_nonneg dy.re; linarith
  have hle' : |dy.re| ≤ Real.sqrt z.re := by
    rw [← Real.sqrt_mul_self_eq_abs]
    apply Real.sqrt_le_sqrt
    rw [ez]; have := mul_self_nonneg dx.re; linarith
  obtain ⟨g1, g2⟩ := over_norm f1 fz pz hle
  obtain ⟨g3, g4⟩ := over_norm f2 fz pz hle'
  have pS := Real.sqrt_pos.2 pz
  have sS := Real.mul_self_sqrt (le_of_lt pz)
  have en : (p.head2.sub r.head2).normalized = ⟨dx.div z.sqrt, dy.div z.sqrt⟩ := by
    rw [ed]
    unfold V2f.normalized V2f.dot
    dsimp only
    rw [hz, if_pos]
    have z0 : isNan (0 : F32) = false := by decide +kernel
    have z1 : val (0 : F32) = 0 := by decide +kernel
    rw [lt_iff z0 (finite_notNan fz), z1]
    exact re_pos.2 pz
  have small : (1 : ℝ) / 2 ^ 23 + 1 / 2 ^ 40 ≤ 3 * (1 / 2 ^ 24) := by norm_num
  rw [en]
  refine ⟨dx.re / Real.sqrt z.re, dy.re / Real.sqrt z.re, Real.sqrt z.re, pS, ?_, ?_, ?_, ⟨g1, le_trans g2 small⟩, ⟨g3, le_trans g4 small⟩⟩
  · rw [← ex, mul_div_cancel₀ _ (ne_of_gt pS)]
  · rw [← ey, mul_div_cancel₀ _ (ne_of_gt pS)]
  · rw [div_mul_div_comm, div_mul_div_comm, ← add_div, sS, ← ez, div_self (ne_of_gt pz)]

/-! ## Distances -/

variable {M : ℝ}

theorem dot_ap {a b x y : F32} {α β : ℝ} (hM : Scale M) (ha : Ap 1 a α 3) (hb : Ap 1 b β 3) (la : |α| ≤ 1) (lb : |β| ≤ 1) (fx : F32.finite x = true) (fy : F32.finite y = true)
    (hx : |x.re| ≤ M) (hy : |y.re| ≤ M) : Ap M ((a.mul x).add (b.mul y)) (α * x.re + β * y.re) 25 ∧ |α * x.re + β * y.re| ≤ 2 * M := by
  have m0 := hM.pos
  have p1 := Ap.mul 1 1 hM ha (Ap.exact fx) la (by rw [one_mul]; exact hx) (by norm_num) (by norm_num) (by norm_num) (by norm_num)
  have p2 := Ap.mul 1 1 hM hb (Ap.exact fy) lb (by rw [one_mul]; exact hy) (by norm_num) (by norm_num) (by norm_num) (by norm_num)
  have s : |α * x.re + β * y.re| ≤ 2 * M := by
    refine le_trans (abs_add_le _ _) ?_
    rw [abs_mul, abs_mul]
    have t1 : |α| * |x.re| ≤ 1 * M := mul_le_mul la hx (abs_nonneg _) (by norm_num)
    have t2 : |β| * |y.re| ≤ 1 * M := mul_le_mul lb hy (abs_nonneg _) (by norm_num)
    linarith
  exact ⟨(Ap.add 2 hM p1 p2 s (by norm_num) (by norm_num)).weaken hM (by norm_num), s⟩

/-- The signed distances of a point from the two lines, exactly. -/
noncomputable def Fw (cx cy : ℝ) (c p : V2f) : ℝ := -cy * (p.x.re - c.x.re) + cx * (p.y.re - c.y.re)
noncomputable def Fh (cx cy : ℝ) (c p : V2f) : ℝ := cx * (p.x.re - c.x.re) + cy * (p.y.re - c.y.re)

/-- finite, and at most `M` -/
structure In (M : ℝ) (p : V2f) : Prop where
  fx : F32.finite p.x = true
  fy : F32.finite p.y = true
  hx : |p.x.re| ≤ M
  hy : |p.y.re| ≤ M

theorem Dir.cross (h : Dir n cx cy) : Ap 1 (across n).x (-cy) 3 ∧ Ap 1 (across n).y cx 3 := ⟨h.ay.neg, h.ax⟩

theorem Dir.bw (h : Dir n cx cy) (hM : Scale M) {c : V2f} (hc : In M c) :
    Ap M (((Hull.across n).dot c).neg) (-(-cy * c.x.re + cx * c.y.re)) 25 ∧ |-(-cy * c.x.re + cx * c.y.re)| ≤ 2 * M := by
  obtain ⟨a1, a2⟩ := h.cross
  obtain ⟨p, q⟩ := dot_ap hM a1 a2 (by rw [abs_neg]; exact h.by') h.bx hc.fx hc.fy hc.hx hc.hy
  exact ⟨p.neg, by rw [abs_neg]; exact q⟩
theorem Dir.bh (h : Dir n cx cy) (hM : Scale M) {c : V2f} (hc : In M c) :
    Ap M ((n.dot c).neg) (-(cx * c.x.re + cy * c.y.re)) 25 ∧ |-(cx * c.x.re + cy * c.y.re)| ≤ 2 * M := by
  obtain ⟨p, q⟩ := dot_ap hM h.ax h.ay h.bx h.by' hc.fx hc.fy hc.hx hc.hy
  exact ⟨p.neg, by rw [abs_neg]; exact q⟩

theorem Dir.w (h : Dir n cx cy) (hM : Scale M) {c p : V2f} (hc : In M c) (hp : In M p) :
    Ap M (((Hull.across n).dot p).add ((Hull.across n).dot c).neg) (Fw cx cy c p) 55 ∧ |Fw cx cy c p| ≤ 4 * M := by
  obtain ⟨b1, b2⟩ := h.bw hM hc
  obtain ⟨a1, a2⟩ := h.cross
  obtain ⟨d1, d2⟩ := dot_ap hM a1 a2 (by rw [abs_neg]; exact h.by') h.bx hp.fx hp.fy hp.hx hp.hy
  have e : Fw cx cy c p = -cy * p.x.re + cx * p.y.re + -(-cy * c.x.re + cx * c.y.re) := by unfold Fw; ring
  have s : |Fw cx cy c p| ≤ 4 * M := by
    rw [e]; refine le_trans (abs_add_le _ _) ?_; linarith
  refine ⟨?_, s⟩
  rw [e] at s ⊢
  exact (Ap.add 4 hM d1 b1 s (by norm_num) (by norm_num)).weaken hM (by norm_num)
theorem Dir.h (h : Dir n cx cy) (hM : Scale M) {c p : V2f} (hc : In M c) (hp : In M p) :
    Ap M ((n.dot p).add (n.dot c).neg) (Fh cx cy c p) 55 ∧ |Fh cx cy c p| ≤ 4 * M := by
  obtain ⟨b1, b2⟩ := h.bh hM hc
  obtain ⟨d1, d2⟩ := dot_ap hM h.ax h.ay h.bx h.by' hp.fx hp.fy hp.hx hp.hy
  have e : Fh cx cy c p = cx * p.x.re + cy * p.y.re + -(cx * c.x.re + cy * c.y.re) := by unfold Fh; ring
  have s : |Fh cx cy c p| ≤ 4 * M := by
    rw [e]; refine le_trans (abs_add_le _ _) ?_; linarith
  refine ⟨?_, s⟩
  rw [e] at s ⊢
  exact (Ap.add 4 hM d1 b1 s (by norm_num) (by norm_num)).weaken hM (by norm_num)

/-- What the loop over the hull computes. -/
structure SpreadOk (M : ℝ) (cx cy : ℝ) (c : V2f) (l : List V2f) (s : Spread) : Prop where
  fw : F32.finite s.maxW = true
  fmin : F32.finite s.minH = true
  fmax : F32.finite s.maxH = true
  w0 : 0 ≤ s.maxW.re
  min0 : s.minH.re ≤ 0
  max0 : 0 ≤ s.maxH.re
  bw : |s.maxW.re| ≤ 5 * M
  bmin : |s.minH.re| ≤ 5 * M
  bmax : |s.maxH.re| ≤ 5 * M
  w : ∀ p ∈ l, Fw cx cy c p ≤ s.maxW.re + 55 * (M / 2 ^ 24)
  lo : ∀ p ∈ l, s.minH.re - 55 * (M / 2 ^ 24) ≤ Fh cx cy c p
  hi : ∀ p ∈ l, Fh cx cy c p ≤ s.maxH.re + 55 * (M / 2 ^ 24)
  atW : ∃ p, (p = c ∨ p ∈ l) ∧ s.maxW.re ≤ Fw cx cy c p + 55 * (M / 2 ^ 24)
  atLo : ∃ p, (p = c ∨ p ∈ l) ∧ Fh cx cy c p - 55 * (M / 2 ^ 24) ≤ s.minH.re
  atHi : ∃ p, (p = c ∨ p ∈ l) ∧ s.maxH.re ≤ Fh cx cy c p + 55 * (M / 2 ^ 24)

theorem zero_re' : re (0 : F32) = 0 := by
  rw [re_eq, show val (0 : F32) = 0 by decide +kernel]; simp

theorem pickMax {a b : F32} (fa : F32.finite a = true) (fb : F32.finite b = true) {K : ℝ} (ba : |a.re| ≤ K) (bb : |b.re| ≤ K) (a0 : 0 ≤ a.re) :
    F32.finite (if a.le b then b else a) = true ∧ |(if a.le b then b else a).re| ≤ K ∧ 0 ≤ (if a.le b then b else a).re ∧ a.re ≤ (if a.le b then b else a).re ∧
      b.re ≤ (if a.le b then b else a).re ∧ ((if a.le b then b else a) = b ∨ (if a.le b then b else a) = a) := by
  by_cases h : a.le b = true
  · rw [if_pos h]
    rw [le_iff (finite_notNan fa) (finite_notNan fb), re_le] at h
    exact ⟨fb, bb, le_trans a0 h, h, le_refl _, .inl rfl⟩
  · rw [if_neg h]
    rw [le_iff (finite_notNan fa) (finite_notNan fb), re_le] at h
    exact ⟨fa, ba, a0, le_refl _, by linarith, .inr rfl⟩
theorem pickMin {a b : F32} (fa : F32.finite a = true) (fb : F32.finite b = true) {K : ℝ} (ba : |a.re| ≤ K) (bb : |b.re| ≤ K) (a0 : a.re ≤ 0) :
    F32.finite (if b.le a then b else a) = true ∧ |(if b.le a then b else a).re| ≤ K ∧ (if b.le a then b else a).re ≤ 0 ∧ (if b.le a then b else a).re ≤ a.re ∧
      (if b.le a then b else a).re ≤ b.re ∧ ((if b.le a then b else a) = b ∨ (if b.le a then b else a) = a) := by
  by_cases h : b.le a = true
  · rw [if_pos h]
    rw [le_iff (finite_notNan fb) (finite_notNan fa), re_le] at h
    exact ⟨fb, bb, le_trans h a0, h, le_refl _, .inl rfl⟩
  · rw [if_neg h]
    rw [le_iff (finite_notNan fb) (finite_notNan fa), re_le] at h
    exact ⟨fa, ba, a0, le_refl _, by linarith, .inr rfl⟩

theorem Dir.step (h : Dir n cx cy) (hM : Scale M) {c : V2f} (hc : In M c) {l : List V2f} {s : Spread} (hs : SpreadOk M cx cy c l s) {p : V2f} (hp : In M p) :
    SpreadOk M cx cy c (p :: l) (spreadStep (Hull.across n) n ((Hull.across n).dot c).neg (n.dot c).neg s p) := by
  obtain ⟨w1, w2⟩ := h.w hM hc hp
  obtain ⟨h1, h2⟩ := h.h hM hc hp
  have sw := w1.size hM w2 (by norm_num)
  have sh := h1.size hM h2 (by norm_num)
  have c1 := abs_le.1 w1.close
  have c2 := abs_le.1 h1.close
  have sw' : |(((Hull.across n).dot p).add ((Hull.across n).dot c).neg).re| ≤ 5 * M := by linarith
  have sh' : |((n.dot p).add (n.dot c).neg).re| ≤ 5 * M := by linarith
  obtain ⟨a1, a2, a3, a4, a5, a6⟩ := pickMax hs.fw w1.fin hs.bw sw' hs.w0
  obtain ⟨b1, b2, b3, b4, b5, b6⟩ := pickMin hs.fmin h1.fin hs.bmin sh' hs.min0
  obtain ⟨d1, d2, d3, d4, d5, d6⟩ := pickMax hs.fmax h1.fin hs.bmax sh' hs.max0
  refine ⟨a1, b1, d1, a3, b3, d3, a2, b2, d2, ?_, ?_, ?_, ?_, ?_, ?_⟩
  · intro q hq
    show _ ≤ (if s.maxW.le _ then _ else s.maxW).re + _
    rcases List.mem_cons.1 hq with rfl | hq
    · linarith [c1.1]
    · linarith [hs.w q hq]
  · intro q hq
    show (if F32.le _ s.minH then _ else s.minH).re - _ ≤ _
    rcases List.mem_cons.1 hq with rfl | hq
    · linarith [c2.2]
    · linarith [hs.lo q hq]
  · intro q hq
    show _ ≤ (if s.maxH.le _ then _ else s.maxH).re + _
    rcases List.mem_cons.1 hq with rfl | hq
    · linarith [c2.1]
    · linarith [hs.hi q hq]
  · show ∃ q, _ ∧ (if s.maxW.le _ then _ else s.maxW).re ≤ _
    rcases a6 with e | e
    · refine ⟨p, .inr (by simp), ?_⟩
      rw [e]; linarith [c1.2]
    · obtain ⟨q, hq, hle⟩ := hs.atW
      refine ⟨q, ?_, ?_⟩
      · rcases hq with hq | hq <;> simp [hq]
      · rw [e]; exact hle
  · show ∃ q, _ ∧ _ ≤ (if F32.le _ s.minH then _ else s.minH).re
    rcases b6 with e | e
    · refine ⟨p, .inr (by simp), ?_⟩
      rw [e]; linarith [c2.1]
    · obtain ⟨q, hq, hle⟩ := hs.atLo
      refine ⟨q, ?_, ?_⟩
      · rcases hq with hq | hq <;> simp [hq]
      · rw [e]; exact hle
  · show ∃ q, _ ∧ (if s.maxH.le _ then _ else s.maxH).re ≤ _
    rcases d6 with e | e
    · refine ⟨p, .inr (by simp), ?_⟩
      rw [e]; linarith [c2.2]
    · obtain ⟨q, hq, hle⟩ := hs.atHi
      refine ⟨q, ?_, ?_⟩
      · rcases hq with hq | hq <;> simp [hq]
      · rw [e]; exact hle

theorem Dir.fold (h : Dir n cx cy) (hM : Scale M) {c : V2f} (hc : In M c) : ∀ (l done : List V2f) (s : Spread), SpreadOk M cx cy c done s → (∀ p ∈ l, In M p) →
    ∃ all, (∀ p, p ∈ all ↔ p ∈ done ∨ p ∈ l) ∧ SpreadOk M cx cy c all (l.foldl (spreadStep (Hull.across n) n ((Hull.across n).dot c).neg (n.dot c).neg) s) := by
  intro l
  induction l with
  | nil => intro done s hs _; exact ⟨done, by simp, hs⟩
  | cons p l ih =>
    intro done s hs hl
    obtain ⟨all, m, r⟩ := ih (p :: done) _ (h.step hM hc hs (hl p (by simp))) (fun q hq => hl q (by simp [hq]))
    refine ⟨all, fun q => ?_, r⟩
    rw [m]; simp only [List.mem_cons]; constructor
    · rintro ((rfl | h) | h) <;> simp [*]
    · rintro (h | rfl | h) <;> simp [*]

theorem Dir.spread_ok (h : Dir n cx cy) (hM : Scale M) {c : V2f} (hc : In M c) {l : List V2f} (hl : ∀ p ∈ l, In M p) :
    SpreadOk M cx cy c l (l.foldl (spreadStep (Hull.across n) n ((Hull.across n).dot c).neg (n.dot c).neg) {}) := by
  have m0 := hM.pos
  have z : SpreadOk M cx cy c [] {} := by
    have f0 : F32.finite (0 : F32) = true := by decide +kernel
    refine ⟨f0, f0, f0, le_of_eq zero_re'.symm, le_of_eq zero_re', le_of_eq zero_re'.symm, ?_, ?_, ?_, by simp, by simp, by simp,
      ⟨c, .inl rfl, ?_⟩, ⟨c, .inl rfl, ?_⟩, ⟨c, .inl rfl, ?_⟩⟩
    · show |re (0 : F32)| ≤ _
      rw [zero_re', abs_zero]; linarith
    · show |re (0 : F32)| ≤ _
      rw [zero_re', abs_zero]; linarith
    · show |re (0 : F32)| ≤ _
      rw [zero_re', abs_zero]; linarith
    · show re (0 : F32) ≤ _
      rw [zero_re']; unfold Fw; simp only [sub_self]; have := hM.eps; linarith
    · show _ ≤ re (0 : F32)
      rw [zero_re']; unfold Fh; simp only [sub_self]; have := hM.eps; linarith
    · show re (0 : F32) ≤ _
      rw [zero_re']; unfold Fh; simp only [sub_self]; have := hM.eps; linarith
  obtain ⟨all, m, r⟩ := h.fold hM hc l [] {} z hl
  have back : ∀ {P : V2f → Prop}, (∃ p, (p = c ∨ p ∈ all) ∧ P p) → ∃ p, (p = c ∨ p ∈ l) ∧ P p := by
    rintro P ⟨p, hp, hP⟩
    refine ⟨p, ?_, hP⟩
    rcases hp with hp | hp
    · exact .inl hp
    · rcases (m p).1 hp with h | h
      · simp at h
      · exact .inr h
  exact ⟨r.fw, r.fmin, r.fmax, r.w0, r.min0, r.max0, r.bw, r.bmin, r.bmax, fun p hp => r.w p ((m p).2 (.inr hp)), fun p hp => r.lo p ((m p).2 (.inr hp)),
    fun p hp => r.hi p ((m p).2 (.inr hp)), back r.atW, back r.atLo, back r.atHi⟩

end Hull
end Verif
