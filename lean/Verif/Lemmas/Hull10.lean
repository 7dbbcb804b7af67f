import Verif.Lemmas.Hull9
set_option exponentiation.threshold 300
/-! # The rotation of a yaw-aligned box -/

namespace Verif
namespace F32

theorem mul_one_val {x : F32} (hx : F32.finite x = true) : F32.finite (x.mul one) = true ∧ (x.mul one).val = x.val := by
  have f1 : F32.finite one = true := by decide +kernel
  obtain ⟨n, v⟩ := mul_val' hx f1
  have h1 : one.val.natAbs = 2 ^ 149 := by decide +kernel
  have hr : roundMag (x.val.natAbs * 2 ^ 149) (2 ^ 149) = x.magBits := by
    have e : roundMag (x.val.natAbs * 2 ^ 149) (2 ^ 149) = roundMag x.val.natAbs 1 := by
      apply Nat.le_antisymm <;> apply roundMag_mono
      · decide
      · decide
      · omega
      · decide
      · decide
      · omega
    rw [e, natAbs_val, roundMag_magVal ((notNan_iff x).1 (finite_notNan hx))]
  have n1 : one.neg? = false := by decide +kernel
  rw [h1, hr, n1, ← natAbs_val] at v
  have hv : (x.mul one).val = x.val := by
    rw [v, val_signed x]; cases x.neg? <;> simp [Int.natAbs_neg]
  exact ⟨by rw [finite_iff_val n, hv, ← finite_iff_val (finite_notNan hx)]; exact hx, hv⟩

theorem zero_add_val {x y : F32} (hx : F32.finite x = true) (hy : F32.finite y = true) (h : x.val = 0) : F32.finite (x.add y) = true ∧ (x.add y).val = y.val := by
  obtain ⟨n, v⟩ := add_val hx hy
  rw [h, Int.zero_add, fl_val (finite_notNan hy)] at v
  exact ⟨by rw [finite_iff_val n, v, ← finite_iff_val (finite_notNan hy)]; exact hy, v⟩
theorem zero_sub_val {x y : F32} (hx : F32.finite x = true) (hy : F32.finite y = true) (h : x.val = 0) : F32.finite (x.sub y) = true ∧ (x.sub y).val = -y.val := by
  have := zero_add_val hx (neg_finite hy) h
  rw [neg_val] at this
  exact this

end F32
namespace Hull
open F32

/-- The columns of the rotation, for the computed cosine `C` and sine `S`. -/
structure Cols (b : BBox) (C S : F32) : Prop where
  fin : ∀ i, (b.column i).FiniteAt
  xx : (b.column .x).x.val = C.val
  xy : (b.column .x).y.val = S.val
  xz : (b.column .x).z.val = 0
  yx : (b.column .y).x.val = -S.val
  yy : (b.column .y).y.val = C.val
  yz : (b.column .y).z.val = 0
  zx : (b.column .z).x.val = 0
  zy : (b.column .z).y.val = 0
  zz : Ap 1 (b.column .z).z 1 45

theorem rotation_cols {t : Trig} {yaw : F32} (fc : F32.finite (t.cos yaw) = true) (fs : F32.finite (t.sin yaw) = true) (bc : |(t.cos yaw).re| ≤ 2) {b : BBox}
    (hb : b.rot = rotation t yaw) : Cols b (t.cos yaw) (t.sin yaw) := by
  have f1 : F32.finite one = true := by decide +kernel
  have f0 : F32.finite (0 : F32) = true := by decide +kernel
  have v0 : (0 : F32).val = 0 := by decide +kernel
  generalize hC : t.cos yaw = C at *
  generalize hS : t.sin yaw = S at *
  have p1 : Ap 1 (one.sub C) (1 - C.re) 5 := by
    have := Ap.sub 3 Scale.one (Ap.exact f1) (Ap.exact fc) (by rw [one_re]; refine le_trans (abs_sub _ _) ?_; rw [abs_one]; linarith) (by norm_num) (by norm_num)
    rw [one_re] at this
    exact this.weaken Scale.one (by norm_num)
  have l1 : |1 - C.re| ≤ 3 := by refine le_trans (abs_sub _ _) ?_; rw [abs_one]; linarith
  obtain ⟨x1, x2⟩ := F32.mul_one_val fs
  obtain ⟨s1, s2⟩ := mul_zero_right fs f0 v0
  obtain ⟨c1, c2⟩ := mul_zero_right p1.fin f0 v0
  obtain ⟨m1, m2⟩ := mul_zero_right c1 f0 v0
  obtain ⟨o1, o2⟩ := F32.mul_one_val c1
  rw [c2] at o2
  obtain ⟨z1, z2⟩ := F32.mul_one_val p1.fin
  obtain ⟨y1, y2⟩ := F32.mul_one_val z1
  obtain ⟨a1, a2⟩ := zero_add_val m1 fc m2
  obtain ⟨b1, b2⟩ := zero_add_val m1 x1 m2
  obtain ⟨d1, d2⟩ := zero_sub_val o1 s1 o2
  obtain ⟨e1, e2⟩ := zero_sub_val m1 x1 m2
  obtain ⟨g1, g2⟩ := zero_add_val o1 s1 o2
  have zz : Ap 1 ((((one.sub C).mul one).mul one).add C) 1 45 := by
    have q : Ap 1 (((one.sub C).mul one).mul one) (1 - C.re) 5 := by
      refine ⟨y1, ?_⟩
      rw [re_eq, y2, z2, ← re_eq]; exact p1.close
    have := Ap.add 1 Scale.one q (Ap.exact fc) (by rw [sub_add_cancel]; norm_num) (by norm_num) (by norm_num)
    rw [sub_add_cancel] at this
    exact this.weaken Scale.one (by norm_num)
  rw [s2] at d2 g2
  rw [x2] at b2 e2
  have ed : b.rot.data = (rotation t yaw).data := by rw [hb]
  unfold rotation at ed
  rw [hC, hS] at ed
  dsimp only at ed
  refine ⟨?_, ?_, ?_, ?_, ?_, ?_, ?_, ?_, ?_, ?_⟩
  · intro i j
    unfold BBox.column
    cases i <;> cases j <;> simp only [V3f.at, ed, List.getD_cons_zero, List.getD_cons_succ]
    · exact a1
    · exact b1
    · exact d1
    · exact e1
    · exact a1
    · exact g1
    · exact g1
    · exact d1
    · exact zz.fin
  all_goals simp only [BBox.column, ed, List.getD_cons_zero, List.getD_cons_succ]
  · exact a2
  · exact b2
  · simpa using d2
  · exact e2
  · exact a2
  · exact g2
  · exact g2
  · simpa using d2
  · exact zz

end Hull
end Verif
