import Verif.Lemmas.Hull12
set_option exponentiation.threshold 300
/-! # The fitted box holds the points: the whole function -/

namespace Verif
namespace Hull
open F32

variable {M : ℝ}

/-! ## Heights -/

theorem foldMin {ps : List V3f} {p : V3f} {K : ℝ} (fp : F32.finite p.z = true) (bp : |p.z.re| ≤ K) (fs : ∀ q ∈ ps, F32.finite q.z = true) (bs : ∀ q ∈ ps, |q.z.re| ≤ K) :
    ∃ m, ps.foldl (fun m q => F32.min' q.z m) p.z = m ∧ F32.finite m = true ∧ |m.re| ≤ K ∧ (∀ q ∈ p :: ps, m.re ≤ q.z.re) ∧ ∃ q ∈ p :: ps, m = q.z := by
  have key : ∀ (l : List V3f) (z : F32), F32.finite z = true → |z.re| ≤ K → (∀ q ∈ l, F32.finite q.z = true) → (∀ q ∈ l, |q.z.re| ≤ K) →
      F32.finite (l.foldl (fun m q => F32.min' q.z m) z) = true ∧ |(l.foldl (fun m q => F32.min' q.z m) z).re| ≤ K ∧ (l.foldl (fun m q => F32.min' q.z m) z).re ≤ z.re ∧
      (∀ q ∈ l, (l.foldl (fun m q => F32.min' q.z m) z).re ≤ q.z.re) ∧ ((l.foldl (fun m q => F32.min' q.z m) z) = z ∨ ∃ q ∈ l, (l.foldl (fun m q => F32.min' q.z m) z) = q.z) := by
    intro l
    induction l with
    | nil => intro z f b _ _; exact ⟨f, b, le_refl _, by simp, .inl rfl⟩
    | cons q l ih =>
      intro z f b fl bl
      have fq := fl q (by simp)
      have bq := bl q (by simp)
      have e : (F32.min' q.z z = q.z ∨ F32.min' q.z z = z) ∧ (F32.min' q.z z).re ≤ q.z.re ∧ (F32.min' q.z z).re ≤ z.re := by
        have := lt_iff (finite_notNan f) (finite_notNan fq)
        unfold F32.min'
        by_cases h : z.lt q.z = true
        · rw [if_pos h]
          rw [this, re_lt] at h
          exact ⟨.inr rfl, le_of_lt h, le_refl _⟩
        · rw [if_neg h]
          rw [this, re_lt, not_lt] at h
          exact ⟨.inl rfl, le_refl _, h⟩
      obtain ⟨i1, i2, i3, i4, i5⟩ := ih (F32.min' q.z z) (by rcases e.1 with e | e <;> rw [e] <;> assumption) (by rcases e.1 with e | e <;> rw [e] <;> assumption)
        (fun x hx => fl x (by simp [hx])) (fun x hx => bl x (by simp [hx]))
      refine ⟨i1, i2, le_trans i3 e.2.2, ?_, ?_⟩
      swap
      · show List.foldl _ (F32.min' q.z z) l = z ∨ ∃ r ∈ q :: l, List.foldl _ (F32.min' q.z z) l = r.z
        rcases i5 with i5 | ⟨r, hr, i5⟩
        · rcases e.1 with e | e
          · exact .inr ⟨q, by simp, i5.trans e⟩
          · exact .inl (i5.trans e)
        · exact .inr ⟨r, by simp [hr], i5⟩
      intro x hx
      rcases List.mem_cons.1 hx with rfl | hx
      · exact le_trans i3 e.2.1
      · exact i4 x hx
  obtain ⟨a, b, c, d, w⟩ := key ps p.z fp bp fs bs
  refine ⟨_, rfl, a, b, ?_, ?_⟩
  swap
  · rcases w with w | ⟨q, hq, w⟩
    · exact ⟨p, by simp, w⟩
    · exact ⟨q, by simp [hq], w⟩
  intro q hq
  rcases List.mem_cons.1 hq with rfl | hq
  · exact c
  · exact d q hq
theorem foldMax {ps : List V3f} {p : V3f} {K : ℝ} (fp : F32.finite p.z = true) (bp : |p.z.re| ≤ K) (fs : ∀ q ∈ ps, F32.finite q.z = true) (bs : ∀ q ∈ ps, |q.z.re| ≤ K) :
    ∃ m, ps.foldl (fun m q => F32.max' q.z m) p.z = m ∧ F32.finite m = true ∧ |m.re| ≤ K ∧ (∀ q ∈ p :: ps, q.z.re ≤ m.re) ∧ ∃ q ∈ p :: ps, m = q.z := by
  have key : ∀ (l : List V3f) (z : F32), F32.finite z = true → |z.re| ≤ K → (∀ q ∈ l, F32.finite q.z = true) → (∀ q ∈ l, |q.z.re| ≤ K) →
      F32.finite (l.foldl (fun m q => F32.max' q.z m) z) = true ∧ |(l.foldl (fun m q => F32.max' q.z m) z).re| ≤ K ∧ z.re ≤ (l.foldl (fun m q => F32.max' q.z m) z).re ∧
      (∀ q ∈ l, q.z.re ≤ (l.foldl (fun m q => F32.max' q.z m) z).re) ∧ ((l.foldl (fun m q => F32.max' q.z m) z) = z ∨ ∃ q ∈ l, (l.foldl (fun m q => F32.max' q.z m) z) = q.z) := by
    intro l
    induction l with
    | nil => intro z f b _ _; exact ⟨f, b, le_refl _, by simp, .inl rfl⟩
    | cons q l ih =>
      intro z f b fl bl
      have fq := fl q (by simp)
      have bq := bl q (by simp)
      have e : (F32.max' q.z z = q.z ∨ F32.max' q.z z = z) ∧ q.z.re ≤ (F32.max' q.z z).re ∧ z.re ≤ (F32.max' q.z z).re := by
        have := lt_iff (finite_notNan fq) (finite_notNan f)
        unfold F32.max'
        by_cases h : q.z.lt z = true
        · rw [if_pos h]
          rw [this, re_lt] at h
          exact ⟨.inr rfl, le_of_lt h, le_refl _⟩
        · rw [if_neg h]
          rw [this, re_lt, not_lt] at h
          exact ⟨.inl rfl, le_refl _, h⟩
      obtain ⟨i1, i2, i3, i4, i5⟩ := ih (F32.max' q.z z) (by rcases e.1 with e | e <;> rw [e] <;> assumption) (by rcases e.1 with e | e <;> rw [e] <;> assumption)
        (fun x hx => fl x (by simp [hx])) (fun x hx => bl x (by simp [hx]))
      refine ⟨i1, i2, le_trans e.2.2 i3, ?_, ?_⟩
      swap
      · show List.foldl _ (F32.max' q.z z) l = z ∨ ∃ r ∈ q :: l, List.foldl _ (F32.max' q.z z) l = r.z
        rcases i5 with i5 | ⟨r, hr, i5⟩
        · rcases e.1 with e | e
          · exact .inr ⟨q, by simp, i5.trans e⟩
          · exact .inl (i5.trans e)
        · exact .inr ⟨r, by simp [hr], i5⟩
      intro x hx
      rcases List.mem_cons.1 hx with rfl | hx
      · exact le_trans e.2.1 i3
      · exact i4 x hx
  obtain ⟨a, b, c, d, w⟩ := key ps p.z fp bp fs bs
  refine ⟨_, rfl, a, b, ?_, ?_⟩
  swap
  · rcases w with w | ⟨q, hq, w⟩
    · exact ⟨p, by simp, w⟩
    · exact ⟨q, by simp [hq], w⟩
  intro q hq
  rcases List.mem_cons.1 hq with rfl | hq
  · exact c
  · exact d q hq

/-! ## The yaw -/

theorem Dir.unit {n : V2f} {cx cy : ℝ} (h : Dir n cx cy) : |n.x.re * n.x.re + n.y.re * n.y.re - 1| ≤ 1 / 2 ^ 20 := by
  have o := h.one
  have a : |n.x.re - cx| ≤ 3 * (1 / 2 ^ 24) := h.ax.close
  have b : |n.y.re - cy| ≤ 3 * (1 / 2 ^ 24) := h.ay.close
  have lx := h.bx
  have ly := h.by'
  have t : ∀ {x c : ℝ}, |x - c| ≤ 3 * (1 / 2 ^ 24) → |c| ≤ 1 → |x * x - c * c| ≤ 7 * (1 / 2 ^ 24) := by
    intro x c h1 h2
    have e : x * x - c * c = (x - c) * ((x - c) + 2 * c) := by ring
    have s : |(x - c) + 2 * c| ≤ 7 / 3 := by
      refine le_trans (abs_add_le _ _) ?_
      rw [abs_mul, abs_of_pos (by norm_num : (0 : ℝ) < 2)]
      have : (3 : ℝ) * (1 / 2 ^ 24) ≤ 1 / 3 := by norm_num
      linarith
    rw [e, abs_mul]
    have := mul_le_mul h1 s (abs_nonneg _) (by norm_num)
    linarith
  have t1 := t a lx
  have t2 := t b ly
  have e : n.x.re * n.x.re + n.y.re * n.y.re - 1 = (n.x.re * n.x.re - cx * cx) + (n.y.re * n.y.re - cy * cy) := by linarith
  rw [e]
  refine le_trans (abs_add_le _ _) ?_
  have : (14 : ℝ) * (1 / 2 ^ 24) ≤ 1 / 2 ^ 20 := by norm_num
  linarith

theorem Trig.Accurate.yaw {t : Trig} (ht : t.Accurate) {n : V2f} {cx cy : ℝ} (h : Dir n cx cy) :
    Ap 1 (t.cos (t.atan2 n.y n.x)) cx 19 ∧ Ap 1 (t.sin (t.atan2 n.y n.x)) cy 19 := by
  obtain ⟨f1, c1⟩ := ht.cos n.x n.y h.ax.fin h.ay.fin h.unit
  obtain ⟨f2, c2⟩ := ht.sin n.x n.y h.ax.fin h.ay.fin h.unit
  have a : |n.x.re - cx| ≤ 3 * (1 / 2 ^ 24) := h.ax.close
  have b : |n.y.re - cy| ≤ 3 * (1 / 2 ^ 24) := h.ay.close
  have k : (1 : ℝ) / 2 ^ 20 = 16 * (1 / 2 ^ 24) := by norm_num
  rw [k] at c1 c2
  refine ⟨⟨f1, ?_⟩, ⟨f2, ?_⟩⟩
  · have := abs_sub_le (t.cos (t.atan2 n.y n.x)).re n.x.re cx; linarith
  · have := abs_sub_le (t.sin (t.atan2 n.y n.x)).re n.y.re cy; linarith

/-! ## Offsets of a point along the axes -/

/-- the coordinate along an axis as a real number -/
theorem along_re (b : BBox) (p : V3f) (i : Axis) : ((b.along p i : Int) : ℝ) = unit * unit * ((b.column i).x.re * (p.x.re - b.center.x.re) +
    ((b.column i).y.re * (p.y.re - b.center.y.re) + (b.column i).z.re * (p.z.re - b.center.z.re))) := by
  unfold BBox.along
  show (((b.column i).x.val * (p.x.val - b.center.x.val) + ((b.column i).y.val * (p.y.val - b.center.y.val) + (b.column i).z.val * (p.z.val - b.center.z.val)) : Int) : ℝ) = _
  push_cast
  simp only [val_re]
  ring

theorem two_terms {C S cx cy px py X Y X' Y' : ℝ} (m0 : 0 < M) (hC : |C - cx| ≤ 19 * (1 / 2 ^ 24)) (hS : |S - cy| ≤ 19 * (1 / 2 ^ 24)) (lx : |cx| ≤ 1) (ly : |cy| ≤ 1)
    (hx : |px| ≤ M) (hy : |py| ≤ M) (cX : |X - X'| ≤ 849 * (M / 2 ^ 24)) (cY : |Y - Y'| ≤ 849 * (M / 2 ^ 24)) (bX : |X'| ≤ 14 * M) (bY : |Y'| ≤ 14 * M) :
    |C * (px - X) + S * (py - Y) - (cx * (px - X') + cy * (py - Y'))| ≤ 2306 * (M / 2 ^ 24) := by
  have sm : 849 * (M / 2 ^ 24) ≤ M := by
    rw [← mul_div_assoc, div_le_iff₀ (by norm_num)]; linarith
  have dX : |px - X| ≤ 16 * M := by
    have h1 := abs_le.1 hx
    have h2 := abs_le.1 cX
    have h3 := abs_le.1 bX
    rw [abs_le]; constructor <;> linarith
  have dY : |py - Y| ≤ 16 * M := by
    have h1 := abs_le.1 hy
    have h2 := abs_le.1 cY
    have h3 := abs_le.1 bY
    rw [abs_le]; constructor <;> linarith
  have e : C * (px - X) + S * (py - Y) - (cx * (px - X') + cy * (py - Y')) = ((C - cx) * (px - X) + (S - cy) * (py - Y)) - (cx * (X - X') + cy * (Y - Y')) := by ring
  rw [e]
  refine le_trans (abs_sub _ _) ?_
  have u1 := abs_add_le ((C - cx) * (px - X)) ((S - cy) * (py - Y))
  have u2 := abs_add_le (cx * (X - X')) (cy * (Y - Y'))
  have t1 : |(C - cx) * (px - X)| ≤ 19 * (1 / 2 ^ 24) * (16 * M) := by rw [abs_mul]; exact mul_le_mul hC dX (abs_nonneg _) (by norm_num)
  have t2 : |(S - cy) * (py - Y)| ≤ 19 * (1 / 2 ^ 24) * (16 * M) := by rw [abs_mul]; exact mul_le_mul hS dY (abs_nonneg _) (by norm_num)
  have t3 := mul_bound lx cX
  have t4 := mul_bound ly cY
  have k : 19 * (1 / 2 ^ 24) * (16 * M) = 304 * (M / 2 ^ 24) := by ring
  rw [k] at t1 t2
  linarith

variable {b : BBox} {C S : F32} {cx cy X Y Z : ℝ}

theorem Placed.along (h : Placed M b C S cx cy X Y Z) (hM : Scale M) {p : V3f} (hp : ∀ a, |(p.at a).re| ≤ M) :
    |((b.along p .x : Int) : ℝ) / (unit * unit) - (cx * (p.x.re - X) + cy * (p.y.re - Y))| ≤ 2306 * (M / 2 ^ 24) ∧
    |((b.along p .y : Int) : ℝ) / (unit * unit) - (-cy * (p.x.re - X) + cx * (p.y.re - Y))| ≤ 2306 * (M / 2 ^ 24) ∧
    |((b.along p .z : Int) : ℝ) / (unit * unit) - (p.z.re - Z)| ≤ 139 * (M / 2 ^ 24) := by
  have m0 := hM.pos
  have e0 := hM.eps
  have uu : (unit * unit : ℝ) ≠ 0 := mul_ne_zero unitR_ne unitR_ne
  have z : ∀ {x : F32}, x.val = 0 → x.re = 0 := fun e => by rw [re_eq, e]; simp
  have lx := h.lx
  have ly := h.ly
  refine ⟨?_, ?_, ?_⟩
  · rw [along_re, mul_div_cancel_left₀ _ uu, z h.cols.xz, zero_mul, _root_.add_zero]
    exact two_terms m0 h.xx.close h.xy.close lx ly (hp .x) (hp .y) h.ax.close h.ay.close h.bx h.bY
  · rw [along_re, mul_div_cancel_left₀ _ uu, z h.cols.yz, zero_mul, _root_.add_zero]
    exact two_terms m0 h.yx.close h.yy.close (by rw [abs_neg]; exact ly) lx (hp .x) (hp .y) h.ax.close h.ay.close h.bx h.bY
  · rw [along_re, mul_div_cancel_left₀ _ uu, z h.cols.zx, z h.cols.zy, zero_mul, zero_mul, _root_.zero_add, _root_.zero_add]
    have c : |(b.column .z).z.re - 1| ≤ 45 * (1 / 2 ^ 24) := h.cols.zz.close
    have d := h.az.close
    have hz : |p.z.re| ≤ M := hp .z
    have bz := h.bz
    have sm : 4 * (M / 2 ^ 24) ≤ M := by rw [← mul_div_assoc, div_le_iff₀ (by norm_num)]; linarith
    have dz : |p.z.re - b.center.z.re| ≤ 3 * M := by
      have h1 := abs_le.1 hz
      have h2 := abs_le.1 d
      have h3 := abs_le.1 bz
      rw [abs_le]; constructor <;> linarith
    have e : (b.column .z).z.re * (p.z.re - b.center.z.re) - (p.z.re - Z) = ((b.column .z).z.re - 1) * (p.z.re - b.center.z.re) - (b.center.z.re - Z) := by ring
    rw [e]
    refine le_trans (abs_sub _ _) ?_
    have t1 : |((b.column .z).z.re - 1) * (p.z.re - b.center.z.re)| ≤ 45 * (1 / 2 ^ 24) * (3 * M) := by rw [abs_mul]; exact mul_le_mul c dz (abs_nonneg _) (by norm_num)
    have k : 45 * (1 / 2 ^ 24) * (3 * M) = 135 * (M / 2 ^ 24) := by ring
    linarith

end Hull
end Verif
