import Verif.Lemmas.Box4
/-! # Intersection over union -/

namespace Verif
open F32
namespace BBox

/-- The sides of the intersection. -/
def overlapSize (a b : BBox) : V3f := ((a.maxCorner.zip F32.min' b.maxCorner).sub (a.minCorner.zip F32.max' b.minCorner)).map (fun x => F32.max' x 0)

theorem Proper.iou_eq {a b : BBox} (ha : a.Proper) (hb : b.Proper) :
    a.computeIoU b = ((a.overlapSize b).reduce F32.mul).div ((a.volume.add b.volume).sub ((a.overlapSize b).reduce F32.mul)) := by
  unfold computeIoU
  rw [ha.valid, hb.valid, ha.axisAligned, hb.axisAligned]
  have e : (AABB != AABB) = false := rfl
  simp only [Bool.not_true, Bool.or_self, Bool.false_eq_true, if_false, e]
  rfl

theorem Proper.volume_eq {a : BBox} (ha : a.Proper) : a.volume = a.dims.reduce F32.mul := by
  unfold volume; rw [ha.valid]; rfl

theorem overlapSize_at (a b : BBox) (i : Axis) : (a.overlapSize b).at i =
    F32.max' ((F32.min' (a.maxCorner.at i) (b.maxCorner.at i)).sub (F32.max' (a.minCorner.at i) (b.minCorner.at i))) 0 := by
  unfold overlapSize
  rw [V3f.at_map, V3f.at_sub, V3f.at_zip, V3f.at_zip]

/-! ## Disjoint boxes -/

theorem _root_.Verif.F32.max0_nonpos {x : F32} (h : x.isNan = true ∨ x.val ≤ 0) : (F32.max' x 0).isNan = true ∨ (F32.max' x 0).magBits = 0 := by
  rcases h with h | h
  · unfold F32.max'
    have e : F32.lt x 0 = false := by unfold F32.lt; rw [h]; rfl
    rw [e]; exact .inl h
  · cases hn : x.isNan with
    | true =>
      unfold F32.max'
      have e : F32.lt x 0 = false := by unfold F32.lt; rw [hn]; rfl
      rw [e]; exact .inl hn
    | false =>
      right
      apply val_zero_mag
      rw [max'_val hn zero_notNan, zero_val]
      omega

/-- A product with a zero is zero or NaN. -/
theorem _root_.Verif.F32.mul_zero_left {x : F32} (h : x.isNan = true ∨ x.magBits = 0) (y : F32) : (x.mul y).isNan = true ∨ (x.mul y).magBits = 0 := by
  rcases h with h | h
  · left
    have e : x.mul y = nan := by unfold mul; rw [h, Bool.true_or, if_pos rfl]
    rw [e]; exact nan_isNan
  · have := mul_zero' (y := y) h
    split at this
    · left; rw [this.1]; exact nan_isNan
    · right
      exact val_zero_mag ((this.2 (this.1.trans zero_notNan)).trans zero_val)
theorem _root_.Verif.F32.div_zero_left {x : F32} (h : x.isNan = true ∨ x.magBits = 0) (y : F32) : (x.div y).isNan = true ∨ (x.div y).val = 0 := by
  rcases h with h | h
  · left
    have e : x.div y = nan := by unfold F32.div; rw [h, Bool.true_or, if_pos rfl]
    rw [e]; exact nan_isNan
  · cases hn : (x.div y).isNan with
    | true => exact .inl rfl
    | false =>
      right
      have h2 : Same x 0 := Same.of_val (val_of_mag h).1 zero_notNan ((val_of_mag h).2.2.1.trans zero_val.symm)
      have h3 := h2.div y
      rw [h3.2 hn]
      have h4 := h3.1.symm.trans hn
      revert h4
      generalize hz : F32.div 0 y = z
      unfold F32.div at hz
      rw [zero_notNan, show F32.isInf 0 = false from by decide +kernel, show F32.magBits 0 = 0 from by decide +kernel] at hz
      simp only [Bool.false_or, Bool.false_eq_true, if_false, magVal_zero, Nat.zero_mul] at hz
      intro h4
      subst hz
      have hp : ∀ s, (pack s 0).val = 0 := fun s => by rw [val_pack (by decide), magVal_zero]; cases s <;> rfl
      split
      · next hc => rw [if_pos hc, nan_isNan] at h4; cases h4
      · split
        · exact hp _
        · split
          · next c1 c2 c3 => rw [if_neg c1, if_neg c2, if_pos c3, if_pos True.intro, nan_isNan] at h4; cases h4
          · have : roundMag 0 (magVal y.magBits) = 0 := by
              have : rawMag 0 (magVal y.magBits) = 0 := by unfold rawMag shiftOf; simp [nearest]
              rw [roundMag_eq, this]; rfl
            rw [this]; exact hp _

theorem Proper.overlap_zero {a b : BBox} (ha : a.Proper) (hb : b.Proper) (h : a.intersects b = false) :
    ∃ i, ((a.overlapSize b).at i).isNan = true ∨ ((a.overlapSize b).at i).magBits = 0 := by
  have h1 : ¬ ∀ i, a.minCorner.coord i < b.maxCorner.coord i ∧ b.minCorner.coord i < a.maxCorner.coord i := by
    rw [← ha.intersects_iff hb, h]; decide
  have : ∃ i, ¬ (a.minCorner.coord i < b.maxCorner.coord i ∧ b.minCorner.coord i < a.maxCorner.coord i) := Classical.not_forall.1 h1
  obtain ⟨i, hi⟩ := this
  refine ⟨i, ?_⟩
  rw [overlapSize_at]
  apply max0_nonpos
  have n1 := (ha.maxCorner_val i).1
  have n2 := (hb.maxCorner_val i).1
  have n3 := (ha.minCorner_val i).1
  have n4 := (hb.minCorner_val i).1
  have v1 := min'_val n1 n2
  have v2 := max'_val n3 n4
  have m1 := min'_notNan n1 n2
  have m2 := max'_notNan n3 n4
  -- the upper bound is at most the lower bound
  have hd1 := half_pos (ha.dims i) (ha.positive i)
  have hd2 := half_pos (hb.dims i) (hb.positive i)
  have hle : (F32.min' (a.maxCorner.at i) (b.maxCorner.at i)).val ≤ (F32.max' (a.minCorner.at i) (b.minCorner.at i)).val := by
    rw [v1, v2]
    have e1 : (a.maxCorner.at i).val = a.maxCorner.coord i := rfl
    have e2 : (b.maxCorner.at i).val = b.maxCorner.coord i := rfl
    have e3 : (a.minCorner.at i).val = a.minCorner.coord i := rfl
    have e4 : (b.minCorner.at i).val = b.minCorner.coord i := rfl
    rw [e1, e2, e3, e4]
    omega
  generalize F32.min' (a.maxCorner.at i) (b.maxCorner.at i) = x at *
  generalize F32.max' (a.minCorner.at i) (b.minCorner.at i) = y at *
  by_cases hfin : F32.finite y = true
  · exact .inr ((sub_le_zero m1 hfin).2.2 hle)
  · -- y is infinite
    have hi : y.isInf = true := by
      cases hh : y.isInf with
      | true => rfl
      | false => exact absurd (finite_of m2 hh) hfin
    have hyv := val_inf hi
    by_cases hx : x.isInf = true
    · have hxv := val_inf hx
      have : x.sub y = nan ∨ x.sub y = x := by
        unfold F32.sub F32.add
        rw [m1, neg_notNan m2, hx, if_neg (by simp), if_pos rfl]
        by_cases hc : (y.neg.isInf && x.neg? != y.neg.neg?) = true
        · rw [if_pos hc]; exact .inl rfl
        · rw [if_neg hc]; exact .inr rfl
      rcases this with h | h
      · left; rw [h]; exact nan_isNan
      · -- x - y = x: then signs of x and -y agree
        right
        rw [h]
        cases hs : x.neg? with
        | true => rw [hxv, hs]; simp
        | false =>
          exfalso
          rw [hs] at hxv
          simp only [Bool.false_eq_true, if_false] at hxv
          have ht : (0 : Int) < top := Int.ofNat_lt.2 (Nat.two_pow_pos _)
          have hys : y.neg? = false := by
            cases hy : y.neg? with
            | false => rfl
            | true => rw [hy] at hyv; simp only [if_true] at hyv; omega
          have : x.sub y = nan := by
            unfold F32.sub F32.add
            have ei : y.neg.isInf = true := by rw [isInf_iff, neg_magBits]; exact (isInf_iff y).1 hi
            rw [m1, neg_notNan m2, hx, ei, neg_neg?, hs, hys]
            rfl
          rw [this] at h
          rw [← h, nan_isNan] at m1
          cases m1
    · have hxf : F32.finite x = true := finite_of m1 (by simpa using hx)
      have hxb := val_finite hxf
      right
      have ht : (0 : Int) < top := Int.ofNat_lt.2 (Nat.two_pow_pos _)
      have hys : y.neg? = false := by
        cases hy : y.neg? with
        | false => rfl
        | true => rw [hy] at hyv; simp only [if_true] at hyv; omega
      have ei : y.neg.isInf = true := by rw [isInf_iff, neg_magBits]; exact (isInf_iff y).1 hi
      have : x.sub y = y.neg := by
        unfold F32.sub F32.add
        rw [m1, neg_notNan m2, ei, finite_notInf hxf]
        rfl
      rw [this, neg_val, hyv, hys]
      simp only [Bool.false_eq_true, if_false]
      omega

theorem reduce_zero {v : V3f} {i : Axis} (h : (v.at i).isNan = true ∨ (v.at i).magBits = 0) : (v.reduce F32.mul).isNan = true ∨ (v.reduce F32.mul).magBits = 0 := by
  unfold V3f.reduce
  cases i
  · exact mul_zero_left h _
  · rw [mul_comm v.x]; exact mul_zero_left (mul_zero_left h _) _
  · rw [mul_comm v.x, mul_comm v.y]; exact mul_zero_left (mul_zero_left h _) _

/-! ## The range -/

theorem _root_.Verif.F32.double_rep (b : Nat) : ∃ b', magVal b' = 2 * magVal b := by
  by_cases h : b < 2 ^ 23
  · exact ⟨2 * b, by rw [magVal_small (b := b) (by omega), magVal_small (by omega)]⟩
  · obtain ⟨e, m, hm, rfl⟩ : ∃ e m, m < 2 ^ 23 ∧ b = (e + 1) * 2 ^ 23 + m := ⟨b / 2 ^ 23 - 1, b % 2 ^ 23, by omega, by omega⟩
    refine ⟨(e + 1 + 1) * 2 ^ 23 + m, ?_⟩
    rw [magVal_parts hm, magVal_parts hm]
    generalize 2 ^ 23 + m = k
    rw [Nat.pow_succ, ← Nat.mul_assoc, Nat.mul_comm _ 2]

theorem _root_.Verif.F32.fl_double {x : F32} (hx : 2 * x.val.natAbs ≤ top) : fl (x.val + x.val) = x.val + x.val := by
  obtain ⟨b', h2⟩ := double_rep x.magBits
  rw [natAbs_val, ← h2, ← magVal_inf, magVal_le_iff] at hx
  have h3 := fl_magVal hx
  rw [h2] at h3
  have e : x.val = if x.neg? then -(magVal x.magBits : Int) else magVal x.magBits := rfl
  rw [e]
  generalize magVal x.magBits = m at *
  split
  · have := fl_neg ((2 * m : Nat) : Int)
    rw [h3] at this
    rw [show -(m : Int) + -(m : Int) = -((2 * m : Nat) : Int) by omega, this]
  · rw [show (m : Int) + (m : Int) = ((2 * m : Nat) : Int) by omega, h3]

/-- The arithmetic of the ratio: if the sides of the intersection are at most those of the boxes. -/
theorem ratio {va vb x : F32} (fa : F32.finite va = true) (fb : F32.finite vb = true) (pa : 0 < va.val) (pb : 0 < vb.val)
    (p0 : 0 ≤ x.val) (nx : x.isNan = false) (h1 : x.val ≤ va.val) (h2 : x.val ≤ vb.val) (hs : va.val + vb.val ≤ 2 ^ 276) :
    F32.finite ((va.add vb).sub x) = true ∧ 0 < ((va.add vb).sub x).val ∧ x.val ≤ ((va.add vb).sub x).val ∧ ((va.add vb).sub x).val ≤ fl (va.val + vb.val) ∧
    (x.val = va.val → x.val = vb.val → ((va.add vb).sub x).val = x.val) := by
  have fx : F32.finite x = true := by
    rw [finite_iff_val nx]
    have := val_finite fa
    generalize top = t at *
    omega
  obtain ⟨a1, a2⟩ := add_val fa fb
  have ht : fl (va.val + vb.val) ≤ 2 ^ 276 := by
    have := fl_mono hs
    have e := roundMag_pow (n := 276) (by omega)
    have e' := fl_ofNat (2 ^ 276)
    rw [e] at e'
    have e2 : (((2 : Nat) ^ 276 : Nat) : Int) = (2 : Int) ^ 276 := Int.natCast_pow 2 276
    rw [e2] at e'
    rwa [e'] at this
  have hnn := fl_nonneg (show 0 ≤ va.val + vb.val by omega)
  have hlt : (2 : Int) ^ 276 < top := by
    have h := Nat.pow_lt_pow_right (show 1 < 2 by decide) (show 276 < 277 by decide)
    have e2 : (((2 : Nat) ^ 276 : Nat) : Int) = (2 : Int) ^ 276 := Int.natCast_pow 2 276
    unfold top
    rw [← e2]
    exact Int.ofNat_lt.2 h
  have fw : F32.finite (va.add vb) = true := by
    rw [finite_iff_val a1, a2]
    generalize (2 : Int) ^ 276 = u at *
    generalize top = t at *
    omega
  obtain ⟨s1, s2⟩ := sub_val fw fx
  rw [a2] at s2
  have hle : fl (fl (va.val + vb.val) - x.val) ≤ fl (va.val + vb.val) := by
    have := fl_mono (show fl (va.val + vb.val) - x.val ≤ fl (va.val + vb.val) by omega)
    have e : fl (fl (va.val + vb.val)) = fl (va.val + vb.val) := by
      rw [← a2]; exact fl_val a1
    rwa [e] at this
  -- twice a volume is not rounded (or fl is monotone)
  have two : ∀ y : F32, F32.finite y = true → 0 < y.val → y.val ≤ va.val → y.val ≤ vb.val → x.val ≤ y.val → y.val ≤ fl (fl (va.val + vb.val) - x.val) := by
    intro y hy py k1 k2 k3
    have b1 : 2 * y.val ≤ fl (va.val + vb.val) := by
      have m := fl_mono (show y.val + y.val ≤ va.val + vb.val by omega)
      have ey : fl (y.val + y.val) = y.val + y.val := fl_double (by
        generalize (2 : Int) ^ 276 = u at *
        generalize top = t at *
        omega)
      omega
    have m := fl_mono (show y.val ≤ fl (va.val + vb.val) - x.val by omega)
    rwa [fl_val (finite_notNan hy)] at m
  have hmin : ∃ y : F32, F32.finite y = true ∧ 0 < y.val ∧ y.val ≤ va.val ∧ y.val ≤ vb.val ∧ x.val ≤ y.val := by
    rcases Int.le_total va.val vb.val with h | h
    · exact ⟨va, fa, pa, Int.le_refl _, h, h1⟩
    · exact ⟨vb, fb, pb, h, Int.le_refl _, h2⟩
  obtain ⟨y, y1, y2, y3, y4, y5⟩ := hmin
  have h6 := two y y1 y2 y3 y4 y5
  rw [s2]
  refine ⟨?_, by omega, by omega, hle, ?_⟩
  · rw [finite_iff_val s1, s2]
    generalize (2 : Int) ^ 276 = u at *
    generalize top = t at *
    omega
  · intro e1 e2
    have e3 : fl (va.val + vb.val) = x.val + x.val := by rw [← e1, ← e2]; exact fl_double (by
        generalize (2 : Int) ^ 276 = u at *
        generalize top = t at *
        omega)
    rw [e3, Int.add_sub_cancel]
    exact fl_val nx

theorem _root_.Verif.F32.mul_notNan {x y : F32} (hx : F32.finite x = true) (hy : F32.finite y = true) : (x.mul y).isNan = false := by
  unfold mul
  rw [finite_notNan hx, finite_notNan hy, finite_notInf hx, finite_notInf hy, if_neg (by simp), if_neg (by simp), if_neg (by simp)]
  exact pack_notNan (roundMag_le _ _)
theorem _root_.Verif.F32.div_notNan {x y : F32} (hx : F32.finite x = true) (hy : F32.finite y = true) (py : 0 < y.val) : (x.div y).isNan = false := by
  have hm : y.magBits ≠ 0 := by
    intro h
    have := (val_of_mag h).2.2.1
    omega
  unfold F32.div
  rw [finite_notNan hx, finite_notNan hy, finite_notInf hx, finite_notInf hy, if_neg (by simp), if_neg (by simp), if_neg (by simp), if_neg hm]
  exact pack_notNan (roundMag_le _ _)

/-- A product of three sides between powers of two. -/
theorem reduce_bounds {v : V3f} {a b : Nat} (hf : v.FiniteAt) (h1 : ∀ i, (2 : Int) ^ a ≤ v.coord i) (h2 : ∀ i, v.coord i ≤ (2 : Int) ^ b)
    (ha : 100 ≤ a) (hb : b ≤ 188) (hab : a ≤ b) :
    F32.finite (v.reduce F32.mul) = true ∧ (2 : Int) ^ (3 * a - 298) ≤ (v.reduce F32.mul).val ∧ (v.reduce F32.mul).val ≤ (2 : Int) ^ (3 * b - 298) := by
  have pos : ∀ i, 0 < (v.at i).val := fun i => Int.lt_of_lt_of_le cell_pos (h1 i)
  have sg : ∀ i, (v.at i).neg? = false := fun i => neg?_of_pos (pos i)
  have g1 := mul_ge (hf .y) (hf .z) (h1 .y) (h1 .z) (by omega) (by omega)
  have l1 := mul_le (hf .y) (hf .z) (sg .y) (sg .z) (h2 .y) (h2 .z) (by omega) (by omega)
  have p1 : 0 < ((v.at .y).mul (v.at .z)).val := Int.lt_of_lt_of_le cell_pos g1
  have g2 := mul_ge (hf .x) l1.2 (h1 .x) g1 (by omega) (by omega)
  have l2 := mul_le (hf .x) l1.2 (sg .x) (neg?_of_pos p1) (h2 .x) l1.1 (by omega) (by omega)
  rw [show a + (a + a - 149) - 149 = 3 * a - 298 by omega] at g2
  rw [show b + (b + b - 149) - 149 = 3 * b - 298 by omega] at l2
  exact ⟨l2.2, g2, l2.1⟩

theorem reduce_mono {v w : V3f} (hv : v.FiniteAt) (hw : w.FiniteAt) (p : ∀ i, 0 < v.coord i) (h : ∀ i, v.coord i ≤ w.coord i)
    (f1 : F32.finite (v.y.mul v.z) = true) (f2 : F32.finite (w.y.mul w.z) = true) : (v.reduce F32.mul).val ≤ (w.reduce F32.mul).val := by
  have q : ∀ i, 0 < w.coord i := fun i => Int.lt_of_lt_of_le (p i) (h i)
  have s1 : ∀ i, (v.at i).neg? = false := fun i => neg?_of_pos (p i)
  have s2 : ∀ i, (w.at i).neg? = false := fun i => neg?_of_pos (q i)
  have m := mul_mono (hv .y) (hv .z) (hw .y) (hw .z) (s1 .y) (s1 .z) (s2 .y) (s2 .z) (h .y) (h .z)
  exact mul_mono (hv .x) f1 (hw .x) f2 (s1 .x) (mul_of_nonneg (hv .y) (hv .z) (s1 .y) (s1 .z)).2.1 (s2 .x)
    (mul_of_nonneg (hw .y) (hw .z) (s2 .y) (s2 .z)).2.1 (h .x) m

/-- The sides of the intersection of boxes on a grid. -/
theorem overlap_cells {a b : BBox} {g : Nat} (hg : g ≤ 252) (i : Axis) {ca ha cb hb : Int} (A : Cells a g i ca ha) (B : Cells b g i cb hb)
    (n1 : (a.maxCorner.at i).isNan = false) (n2 : (b.maxCorner.at i).isNan = false) (n3 : (a.minCorner.at i).isNan = false) (n4 : (b.minCorner.at i).isNan = false) :
    F32.finite ((a.overlapSize b).at i) = true ∧
    (a.overlapSize b).coord i = 2 ^ g * max (min (2 * ca + ha) (2 * cb + hb) - max (2 * ca - ha) (2 * cb - hb)) 0 := by
  have hb1 := A.bc
  have hb2 := A.bh
  have hb3 := B.bc
  have hb4 := B.bh
  have fin : ∀ x : F32, x.isNan = false → ∀ k : Int, x.val = 2 ^ g * k → k.natAbs < 2 ^ 24 → F32.finite x = true := by
    intro x hx k hk hb
    rw [finite_iff_val hx, hk]
    exact Nat.lt_of_lt_of_le (cells_lt hg k hb) (Nat.pow_le_pow_right (by decide) (by decide))
  have v1 := min'_val n1 n2
  have v2 := max'_val n3 n4
  have e1 : (a.maxCorner.at i).val = 2 ^ g * (2 * ca + ha) := A.max
  have e2 : (b.maxCorner.at i).val = 2 ^ g * (2 * cb + hb) := B.max
  have e3 : (a.minCorner.at i).val = 2 ^ g * (2 * ca - ha) := A.min
  have e4 : (b.minCorner.at i).val = 2 ^ g * (2 * cb - hb) := B.min
  rw [e1, e2, cell_min] at v1
  rw [e3, e4, cell_max] at v2
  have f1 := fin _ (min'_notNan n1 n2) _ v1 (by omega)
  have f2 := fin _ (max'_notNan n3 n4) _ v2 (by omega)
  obtain ⟨s1, s2⟩ := sub_val f1 f2
  rw [v1, v2, ← Int.mul_sub, fl_cells (by omega) _ (by omega)] at s2
  unfold V3f.coord
  rw [overlapSize_at]
  have fs := fin _ s1 _ s2 (by omega)
  refine ⟨max'_finite fs zero_finite, ?_⟩
  rw [max'_val s1 zero_notNan, s2, zero_val]
  conv => lhs; rw [← Int.mul_zero (2 ^ g)]
  exact cell_max

end BBox
end Verif
