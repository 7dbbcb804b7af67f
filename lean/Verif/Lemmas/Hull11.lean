import Verif.Lemmas.Hull10
/-! # Points in the frame of a yaw-aligned box -/

namespace Verif
namespace Hull
open F32

/-- A box with the rotation of an edge of the hull and a centre, up to rounding. -/
structure Placed (M : ℝ) (b : BBox) (C S : F32) (cx cy X Y Z : ℝ) : Prop where
  type : b.type = BBox.RAABB
  cols : Cols b C S
  one : cx * cx + cy * cy = 1
  ac : Ap 1 C cx 19
  as : Ap 1 S cy 19
  ax : Ap M b.center.x X 849
  ay : Ap M b.center.y Y 849
  az : Ap M b.center.z Z 4
  bx : |X| ≤ 14 * M
  bY : |Y| ≤ 14 * M
  bz : |Z| ≤ M

variable {M : ℝ} {b : BBox} {C S : F32} {cx cy X Y Z : ℝ}

theorem Ap.same {x y : F32} {v k : ℝ} (h : Ap M x v k) (fy : F32.finite y = true) (e : y.val = x.val) : Ap M y v k := ⟨fy, by rw [re_eq, e, ← re_eq]; exact h.close⟩

theorem Placed.xx (h : Placed M b C S cx cy X Y Z) : Ap 1 (b.column .x).x cx 19 := Ap.same h.ac (h.cols.fin .x .x) h.cols.xx
theorem Placed.xy (h : Placed M b C S cx cy X Y Z) : Ap 1 (b.column .x).y cy 19 := Ap.same h.as (h.cols.fin .x .y) h.cols.xy
theorem Placed.yx (h : Placed M b C S cx cy X Y Z) : Ap 1 (b.column .y).x (-cy) 19 := Ap.same h.as.neg (h.cols.fin .y .x) (by rw [neg_val]; exact h.cols.yx)
theorem Placed.yy (h : Placed M b C S cx cy X Y Z) : Ap 1 (b.column .y).y cx 19 := Ap.same h.ac (h.cols.fin .y .y) h.cols.yy
theorem zero_ap {x : F32} (fx : F32.finite x = true) (h : x.val = 0) : Ap M x 0 0 := ⟨fx, by rw [re_eq, h]; simp⟩

theorem noRotation_entries (ht : b.type = BBox.RAABB) (hr : b.hasRotation = false) : (b.column .x).x.eq F32.one = true ∧ (b.column .x).y.eq 0 = true := by
  unfold BBox.hasRotation at hr
  rw [ht] at hr
  have hr' : Matrix.eqFixed F32.eq b.rot ({} : BBox).rot = true := by
    cases he : Matrix.eqFixed F32.eq b.rot ({} : BBox).rot
    · rw [he] at hr; exact absurd hr (by decide)
    · rfl
  unfold Matrix.eqFixed at hr'
  unfold BBox.column
  match hd : b.rot.data with
  | [] => rw [hd] at hr'; simp [listEq] at hr'
  | [_] => rw [hd] at hr'; simp [listEq] at hr'
  | a :: c :: r =>
    rw [hd] at hr'
    simp only [listEq, Bool.and_eq_true] at hr'
    exact ⟨hr'.1, hr'.2.1⟩

theorem rot_ap {n x : F32} {c v k : ℝ} (hM : Scale M) (hn : Ap 1 n c 19) (lc : |c| ≤ 1) (hx : Ap M x v k) (hv : |v| ≤ 28 * M) (hk : k ≤ 1697) : Ap M (n.mul x) (c * v) 2307 :=
  (Ap.mul 1 28 hM hn hx lc hv (by norm_num) (by norm_num) (by norm_num) (by linarith)).weaken hM (by linarith)

theorem mul_bound {c v K : ℝ} (lc : |c| ≤ 1) (hv : |v| ≤ K) : |c * v| ≤ K := by
  rw [abs_mul]
  have : |c| * |v| ≤ 1 * K := mul_le_mul lc hv (abs_nonneg _) (by norm_num)
  linarith

/-- A row with two proper entries. -/
theorem row2_ap {c0 c1 c2 x y z : F32} {α β u v k w kz : ℝ} (hM : Scale M) (h0 : Ap 1 c0 α 19) (h1 : Ap 1 c1 β 19) (h2 : Ap 1 c2 0 0) (la : |α| ≤ 1) (lb : |β| ≤ 1)
    (hx : Ap M x u k) (hy : Ap M y v k) (hz : Ap M z w kz) (bx : |u| ≤ 28 * M) (bY : |v| ≤ 28 * M) (bz : |w| ≤ 2 * M) (hk : k ≤ 1697) (hkz : kz ≤ 7) :
    Ap M ((c0.mul x).add ((c1.mul y).add (c2.mul z))) (α * u + β * v) 4704 := by
  have m0 := hM.pos
  have p0 := rot_ap hM h0 la hx bx hk
  have p1 := rot_ap hM h1 lb hy bY hk
  have p2 := Ap.mul 0 2 hM h2 hz (by simp) bz (by norm_num) (by norm_num) (by norm_num) (by linarith)
  rw [zero_mul] at p2
  have s1 : |β * v| ≤ 28 * M := mul_bound lb bY
  have s0 : |α * u| ≤ 28 * M := mul_bound la bx
  have q := Ap.add 28 hM p1 p2 (by rw [add_zero]; exact s1) (by norm_num) (by norm_num)
  rw [add_zero] at q
  have := Ap.add 56 hM p0 q (by refine le_trans (abs_add_le _ _) ?_; linarith) (by norm_num) (by norm_num)
  exact this.weaken hM (by norm_num)

theorem row1_ap {c0 c1 c2 x y z : F32} {u v k w : ℝ} (hM : Scale M) (h0 : Ap 1 c0 0 0) (h1 : Ap 1 c1 0 0) (h2 : Ap 1 c2 1 45)
    (hx : Ap M x u k) (hy : Ap M y v k) (hz : Ap M z w 7) (bx : |u| ≤ 28 * M) (bY : |v| ≤ 28 * M) (bz : |w| ≤ 2 * M) (hk : k ≤ 1697) :
    Ap M ((c0.mul x).add ((c1.mul y).add (c2.mul z))) w 215 := by
  have m0 := hM.pos
  have p0 := Ap.mul 0 28 hM h0 hx (by simp) bx (by norm_num) (by norm_num) (by norm_num) (by linarith)
  have p1 := Ap.mul 0 28 hM h1 hy (by simp) bY (by norm_num) (by norm_num) (by norm_num) (by linarith)
  have p2 := Ap.mul 1 2 hM h2 hz (by simp) bz (by norm_num) (by norm_num) (by norm_num) (by norm_num)
  rw [zero_mul] at p0 p1
  rw [one_mul] at p2
  have q := Ap.add 2 hM p1 p2 (by rw [zero_add]; exact bz) (by norm_num) (by norm_num)
  rw [zero_add w] at q
  have := Ap.add 2 hM p0 q (by rw [zero_add]; exact bz) (by norm_num) (by norm_num)
  rw [zero_add w] at this
  exact this.weaken hM (by linarith)

theorem Placed.lx (h : Placed M b C S cx cy X Y Z) : |cx| ≤ 1 := abs_le_one h.one
theorem Placed.ly (h : Placed M b C S cx cy X Y Z) : |cy| ≤ 1 := abs_le_one (by have := h.one; linarith : cy * cy + cx * cx = 1)

theorem Placed.frame (h : Placed M b C S cx cy X Y Z) (hM : Scale M) {q : V3f} {u v : ℝ} (hx : Ap M q.x u 819) (hy : Ap M q.y v 819) (fz : F32.finite q.z = true)
    (bu : |u| ≤ 14 * M) (bv : |v| ≤ 14 * M) (bq : |q.z.re| ≤ M) :
    Ap M (b.pointToBoxFrame q).x (cx * (u - X) + cy * (v - Y)) 4704 ∧ Ap M (b.pointToBoxFrame q).y (-cy * (u - X) + cx * (v - Y)) 4704 ∧
    Ap M (b.pointToBoxFrame q).z (q.z.re - Z) 215 := by
  have m0 := hM.pos
  have dx : |u - X| ≤ 28 * M := by refine le_trans (abs_sub _ _) ?_; linarith [h.bx]
  have dy : |v - Y| ≤ 28 * M := by refine le_trans (abs_sub _ _) ?_; linarith [h.bY]
  have dz : |q.z.re - Z| ≤ 2 * M := by refine le_trans (abs_sub _ _) ?_; linarith [h.bz]
  have px : Ap M (q.x.sub b.center.x) (u - X) 1697 := (Ap.sub 28 hM hx h.ax dx (by norm_num) (by norm_num)).weaken hM (by norm_num)
  have py : Ap M (q.y.sub b.center.y) (v - Y) 1697 := (Ap.sub 28 hM hy h.ay dy (by norm_num) (by norm_num)).weaken hM (by norm_num)
  have pz : Ap M (q.z.sub b.center.z) (q.z.re - Z) 7 := (Ap.sub 2 hM (Ap.exact fz) h.az dz (by norm_num) (by norm_num)).weaken hM (by norm_num)
  have lx := h.lx
  have ly := h.ly
  have ly' : |-cy| ≤ 1 := by rw [abs_neg]; exact ly
  have z : ∀ {x : F32}, F32.finite x = true → x.val = 0 → Ap 1 x 0 0 := fun f e => zero_ap f e
  by_cases hr : b.hasRotation = true
  · unfold BBox.pointToBoxFrame
    rw [if_pos hr]
    refine ⟨?_, ?_, ?_⟩
    · exact row2_ap hM h.xx h.xy (z (h.cols.fin .x .z) h.cols.xz) lx ly px py pz dx dy dz (le_refl _) (le_refl _)
    · exact row2_ap hM h.yx h.yy (z (h.cols.fin .y .z) h.cols.yz) ly' lx px py pz dx dy dz (le_refl _) (le_refl _)
    · exact row1_ap hM (z (h.cols.fin .z .x) h.cols.zx) (z (h.cols.fin .z .y) h.cols.zy) h.cols.zz px py pz dx dy dz (le_refl _)
  · have hr' : b.hasRotation = false := by simpa using hr
    obtain ⟨e1, e2⟩ := noRotation_entries h.type hr'
    have e1 := (Hull.eq_iff (show F32.finite (b.column .x).x = true from h.cols.fin .x .x) (y := F32.one) (by decide +kernel)).1 e1
    have e2 := (Hull.eq_iff (show F32.finite (b.column .x).y = true from h.cols.fin .x .y) (y := 0) (by decide +kernel)).1 e2
    rw [show (0 : F32).val = 0 by decide +kernel] at e2
    have c1 := h.xx.close
    have c2 := h.xy.close
    rw [re_eq, e1, ← re_eq, one_re] at c1
    rw [re_eq, e2] at c2
    have c2' : |cy| ≤ 19 * (1 / 2 ^ 24) := by
      have : |(((0 : ℤ) : ℝ)) / (unit : ℝ) - cy| = |cy| := by rw [Int.cast_zero, zero_div, zero_sub, abs_neg]
      rw [this] at c2; exact c2
    have c1' : |1 - cx| ≤ 19 * (1 / 2 ^ 24) := c1
    have near : ∀ {x : F32} {a d : ℝ}, Ap M x a 1697 → |a| ≤ 28 * M → |d| ≤ 28 * M → ∀ {e : ℝ}, |e| ≤ 19 * (1 / 2 ^ 24) → Ap M x (cx * a + e * d) 4704 := by
      intro x a d hx ba bd e he
      refine ⟨hx.fin, ?_⟩
      have t1 : |(1 - cx) * a| ≤ 19 * (1 / 2 ^ 24) * (28 * M) := by
        rw [abs_mul]; exact mul_le_mul c1' ba (abs_nonneg _) (by norm_num)
      have t2 : |e * d| ≤ 19 * (1 / 2 ^ 24) * (28 * M) := by
        rw [abs_mul]; exact mul_le_mul he bd (abs_nonneg _) (by norm_num)
      have t3 := hx.close
      have : x.re - (cx * a + e * d) = (x.re - a) + ((1 - cx) * a - e * d) := by ring
      rw [this]
      have u1 := abs_add_le (x.re - a) ((1 - cx) * a - e * d)
      have u2 := abs_sub ((1 - cx) * a) (e * d)
      have k : 1697 * (M / 2 ^ 24) + (19 * (1 / 2 ^ 24) * (28 * M) + 19 * (1 / 2 ^ 24) * (28 * M)) ≤ 4704 * (M / 2 ^ 24) := by
        have : 1697 * (M / 2 ^ 24) + (19 * (1 / 2 ^ 24) * (28 * M) + 19 * (1 / 2 ^ 24) * (28 * M)) = 2761 * (M / 2 ^ 24) := by ring
        rw [this]
        exact mul_le_mul_of_nonneg_right (by norm_num) (le_of_lt hM.eps)
      linarith
    unfold BBox.pointToBoxFrame
    rw [if_neg hr]
    refine ⟨near px dx dy c2', ?_, pz.weaken hM (by norm_num)⟩
    have := near py dy dx (e := -cy) (by rw [abs_neg]; exact c2')
    exact this.cong (by ring)

end Hull
end Verif
