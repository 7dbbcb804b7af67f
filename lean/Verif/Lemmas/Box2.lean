import Verif.Lemmas.Box
/-! # Floats that differ at most in the sign of zero or a NaN payload -/

namespace Verif
namespace F32

/-- Both NaN, or the same number. -/
def Same (x y : F32) : Prop := x.isNan = y.isNan ∧ (x.isNan = false → x.val = y.val)

theorem Same.refl (x : F32) : Same x x := ⟨rfl, fun _ => rfl⟩
theorem Same.of_val {x y : F32} (hx : x.isNan = false) (hy : y.isNan = false) (h : x.val = y.val) : Same x y := ⟨hx.trans hy.symm, fun _ => h⟩

theorem Same.cases {x y : F32} (h : Same x y) : x = y ∨ (x.isNan = true ∧ y.isNan = true) ∨ (x.magBits = 0 ∧ y.magBits = 0) := by
  cases hx : x.isNan with
  | true => exact .inr (.inl ⟨rfl, h.1 ▸ hx⟩)
  | false =>
    have hv := h.2 hx
    have hm : x.magBits = y.magBits := by
      have h1 := natAbs_val x
      have h2 := natAbs_val y
      rw [hv, h2] at h1
      exact Nat.le_antisymm (magVal_le_iff.1 (Nat.le_of_eq h1.symm)) (magVal_le_iff.1 (Nat.le_of_eq h1))
    by_cases h0 : x.magBits = 0
    · exact .inr (.inr ⟨h0, hm ▸ h0⟩)
    · left
      rw [← pack_parts x, ← pack_parts y, hm]
      have hp : 0 < magVal y.magBits := by
        have := magVal_lt (show 0 < y.magBits by omega)
        rwa [magVal_zero] at this
      unfold val at hv
      rw [hm] at hv
      cases hnx : x.neg? <;> cases hny : y.neg? <;> rw [hnx, hny] at hv
      · simp only [Bool.false_eq_true, if_false, if_true] at hv; omega
      · simp only [Bool.false_eq_true, if_false, if_true] at hv; omega

theorem val_of_mag {x : F32} (h : x.magBits = 0) : x.isNan = false ∧ x.isInf = false ∧ x.val = 0 ∧ F32.finite x = true := by
  refine ⟨by rw [notNan_iff]; omega, by rw [← Bool.not_eq_true, isInf_iff]; omega, ?_, by rw [finite_mag]; omega⟩
  unfold val; rw [h, magVal_zero]; split <;> rfl

theorem bne_comm (a b : Bool) : (a != b) = (b != a) := by cases a <;> cases b <;> rfl

theorem add_comm (x y : F32) : x.add y = y.add x := by
  unfold add
  rw [Bool.or_comm, bne_comm]
  split
  · rfl
  · by_cases hx : x.isInf = true <;> by_cases hy : y.isInf = true
    · simp only [hx, hy, if_true, Bool.true_and]
      by_cases h : (y.neg? != x.neg?) = true
      · rw [if_pos h, if_pos h]
      · rw [if_neg h, if_neg h]
        simp only [bne_iff_ne, ne_eq, Decidable.not_not] at h
        have h1 := pack_parts x
        have h2 := pack_parts y
        rw [(isInf_iff x).1 hx] at h1
        rw [(isInf_iff y).1 hy, h] at h2
        exact h1.symm.trans h2
    · simp [hx, hy]
    · simp [hx, hy]
    · simp [hx, hy, Int.add_comm y.val, Bool.and_comm]

theorem mul_comm (x y : F32) : x.mul y = y.mul x := by
  unfold mul
  simp only [Bool.or_comm x.isNan, bne_comm x.neg?, Nat.mul_comm (magVal x.magBits)]
  split
  · rfl
  · by_cases hx : x.isInf = true <;> by_cases hy : y.isInf = true
    · simp only [hx, hy, if_true, (isInf_iff x).1 hx, (isInf_iff y).1 hy]
    · simp [hx, hy]
    · simp [hx, hy]
    · simp [hx, hy]

theorem val_nonneg {x : F32} (h : x.neg? = false) : 0 ≤ x.val := by
  unfold val; rw [h]; simp only [Bool.false_eq_true, if_false]; omega
theorem nan_neg? : nan.neg? = false := by decide +kernel
theorem mul_neg? {x y : F32} (hx : x.neg? = false) (hy : y.neg? = false) : (x.mul y).neg? = false := by
  unfold mul
  rw [hx, hy]
  simp only [bne_self_eq_false]
  split
  · exact nan_neg?
  · split
    · split
      · exact nan_neg?
      · exact neg?_pack (by omega)
    · split
      · split
        · exact nan_neg?
        · exact neg?_pack (by omega)
      · exact neg?_pack (roundMag_lt _ _)
theorem add_neg? {x y : F32} (hx : x.neg? = false) (hy : y.neg? = false) : (x.add y).neg? = false := by
  have h1 := val_nonneg hx
  have h2 := val_nonneg hy
  unfold add
  rw [hx, hy]
  split
  · exact nan_neg?
  · split
    · split
      · exact nan_neg?
      · exact hx
    · split
      · exact hy
      · split
        · exact neg?_pack (by omega)
        · rw [neg?_pack (roundMag_lt _ _), decide_eq_false_iff_not]; omega

/-- A difference from a number that is not negative does not see the sign of a zero. -/
theorem sub_same {w p q : F32} (hw : w.neg? = false) (h : Same p q) : w.sub p = w.sub q := by
  rcases h.cases with rfl | ⟨h1, h2⟩ | ⟨h1, h2⟩
  · rfl
  · have e : ∀ z : F32, z.neg.isNan = z.isNan := fun z => by rw [Bool.eq_iff_iff, isNan_iff, isNan_iff, neg_magBits]
    have e' : ∀ z : F32, z.isNan = true → w.sub z = nan := fun z h => by unfold sub add; rw [e, h, Bool.or_true, if_pos rfl]
    rw [e' _ h1, e' _ h2]
  · obtain ⟨a1, a2, a3, a4⟩ := val_of_mag ((neg_magBits p).trans h1)
    obtain ⟨b1, b2, b3, b4⟩ := val_of_mag ((neg_magBits q).trans h2)
    unfold sub add
    rw [a1, a2, a3, b1, b2, b3, hw]
    simp

theorem nan_isNan : nan.isNan = true := by decide +kernel

theorem nan_same (x y : F32) (hx : x.isNan = true) (hy : y.isNan = true) : Same x y := ⟨hx.trans hy.symm, fun h => by rw [hx] at h; cases h⟩

theorem Same.add {x x' : F32} (h : Same x x') (y : F32) : Same (x.add y) (x'.add y) := by
  rcases h.cases with rfl | ⟨h1, h2⟩ | ⟨h1, h2⟩
  · exact Same.refl _
  · have e : ∀ z : F32, z.isNan = true → z.add y = nan := fun z h => by unfold F32.add; rw [h, Bool.true_or, if_pos rfl]
    rw [e _ h1, e _ h2]; exact Same.refl _
  · obtain ⟨a1, a2, a3, a4⟩ := val_of_mag h1
    obtain ⟨b1, b2, b3, b4⟩ := val_of_mag h2
    by_cases hn : y.isNan = true
    · have e : ∀ z : F32, z.add y = nan := fun z => by unfold F32.add; rw [hn, Bool.or_true, if_pos rfl]
      rw [e, e]; exact Same.refl _
    · by_cases hi : y.isInf = true
      · have e : ∀ z : F32, z.isNan = false → z.isInf = false → z.add y = y := fun z h1 h2 => by
          unfold F32.add; rw [h1, h2, hi, if_neg (by simpa using hn)]; rfl
        rw [e _ a1 a2, e _ b1 b2]; exact Same.refl _
      · have hf := finite_of (by simpa using hn) (by simpa using hi)
        have h1 := add_val a4 hf
        have h2 := add_val b4 hf
        rw [a3] at h1; rw [b3] at h2
        exact Same.of_val h1.1 h2.1 (h1.2.trans h2.2.symm)

theorem Same.trans {x y z : F32} (h : Same x y) (h' : Same y z) : Same x z :=
  ⟨h.1.trans h'.1, fun hx => (h.2 hx).trans (h'.2 (h.1 ▸ hx))⟩
theorem Same.symm {x y : F32} (h : Same x y) : Same y x := ⟨h.1.symm, fun hx => (h.2 (h.1 ▸ hx)).symm⟩

theorem Same.neg {x y : F32} (h : Same x y) : Same x.neg y.neg := by
  have e : ∀ z : F32, z.neg.isNan = z.isNan := fun z => by
    rw [Bool.eq_iff_iff, isNan_iff, isNan_iff, neg_magBits]
  exact ⟨by rw [e, e, h.1], fun hx => by rw [neg_val, neg_val, h.2 (by rw [← e, hx])]⟩

theorem Same.sub {x x' y y' : F32} (h : Same x x') (h' : Same y y') : Same (x.sub y) (x'.sub y') := by
  unfold F32.sub
  refine (h.add _).trans ?_
  rw [add_comm x', add_comm x']
  exact h'.neg.add _

theorem mul_zero' {x y : F32} (hx : x.magBits = 0) : Same (x.mul y) (if y.isNan || y.isInf then nan else 0) := by
  obtain ⟨a1, a2, a3, a4⟩ := val_of_mag hx
  by_cases hn : y.isNan = true
  · have e : x.mul y = nan := by unfold mul; rw [hn, Bool.or_true, if_pos rfl]
    rw [e, hn, Bool.true_or, if_pos rfl]; exact Same.refl _
  · by_cases hi : y.isInf = true
    · have e : x.mul y = nan := by
        unfold mul; rw [a1, a2, hi, hx, if_neg (by simpa using hn)]; rfl
      rw [e, hi, Bool.or_true, if_pos rfl]; exact Same.refl _
    · have hf := finite_of (by simpa using hn) (by simpa using hi)
      rw [mul_comm]
      have := mul_zero hf a1 a3
      simp only [hn, hi, Bool.or_self, Bool.false_eq_true, if_false]
      exact Same.of_val (finite_notNan this.1) zero_notNan (by rw [this.2, zero_val])

theorem Same.mul {x x' y y' : F32} (h : Same x x') (h' : Same y y') : Same (x.mul y) (x'.mul y') := by
  have left : ∀ {x x' : F32} (y : F32), Same x x' → Same (x.mul y) (x'.mul y) := by
    intro x x' y h
    rcases h.cases with rfl | ⟨h1, h2⟩ | ⟨h1, h2⟩
    · exact Same.refl _
    · have e : ∀ z : F32, z.isNan = true → z.mul y = nan := fun z h => by unfold F32.mul; rw [h, Bool.true_or, if_pos rfl]
      rw [e _ h1, e _ h2]; exact Same.refl _
    · exact (mul_zero' h1).trans (mul_zero' h2).symm
  refine (left _ h).trans ?_
  rw [mul_comm x', mul_comm x']
  exact left _ h'

theorem Same.div {x x' : F32} (h : Same x x') (y : F32) : Same (x.div y) (x'.div y) := by
  rcases h.cases with rfl | ⟨h1, h2⟩ | ⟨h1, h2⟩
  · exact Same.refl _
  · have e : ∀ z : F32, z.isNan = true → z.div y = nan := fun z h => by unfold F32.div; rw [h, Bool.true_or, if_pos rfl]
    rw [e _ h1, e _ h2]; exact Same.refl _
  · have key : ∀ {z : F32}, z.magBits = 0 → Same (z.div y) (if y.isNan then nan else if y.isInf then 0 else if y.magBits = 0 then nan else 0) := by
      intro z hz
      obtain ⟨a1, a2, a3, a4⟩ := val_of_mag hz
      have p0 : ∀ s, Same (pack s 0) 0 := fun s =>
        Same.of_val (pack_notNan (by omega)) zero_notNan (by rw [val_pack (by omega), magVal_zero, zero_val]; split <;> rfl)
      unfold F32.div
      by_cases hn : y.isNan = true
      · rw [hn, Bool.or_true, if_pos rfl, if_pos rfl]; exact Same.refl _
      · by_cases hi : y.isInf = true
        · rw [a1, a2, hi, if_neg (by simpa using hn), if_neg hn]; exact p0 _
        · by_cases hy : y.magBits = 0
          · rw [a1, a2, if_neg (by simpa using hn), if_neg hn, if_neg hi, if_pos hy, hz, if_neg (by simp), if_neg hi, if_pos hy, if_pos rfl, if_neg hi]; exact Same.refl _
          · rw [a1, a2, if_neg (by simpa using hn), if_neg hn, if_neg hi, if_neg hy, hz, magVal_zero, Nat.zero_mul, if_neg (by simp), if_neg hi, if_neg hy]
            have hp : 0 < magVal y.magBits := by
              have := magVal_lt (show 0 < y.magBits by omega)
              rwa [magVal_zero] at this
            have : roundMag 0 (magVal y.magBits) = 0 :=
              (roundMag_congr hp (by decide) (show 0 * 1 = 0 * magVal y.magBits by simp)).trans roundMag_zero
            rw [this, if_neg hi]
            exact p0 _
    exact (key h1).trans (key h2).symm

theorem max'_comm {x y : F32} (hx : x.isNan = false) (hy : y.isNan = false) : Same (max' x y) (max' y x) :=
  Same.of_val (max'_notNan hx hy) (max'_notNan hy hx) (by rw [max'_val hx hy, max'_val hy hx]; omega)
theorem min'_comm {x y : F32} (hx : x.isNan = false) (hy : y.isNan = false) : Same (min' x y) (min' y x) :=
  Same.of_val (min'_notNan hx hy) (min'_notNan hy hx) (by rw [min'_val hx hy, min'_val hy hx]; omega)
/-- `max(x, 0)` -/
theorem Same.max0 {x y : F32} (h : Same x y) : Same (max' x 0) (max' y 0) := by
  cases hx : x.isNan with
  | true =>
    have hy : y.isNan = true := h.1 ▸ hx
    unfold max' lt
    rw [hx, hy]
    exact nan_same _ _ hx hy
  | false =>
    have hy : y.isNan = false := h.1 ▸ hx
    exact Same.of_val (max'_notNan hx zero_notNan) (max'_notNan hy zero_notNan) (by rw [max'_val hx zero_notNan, max'_val hy zero_notNan, h.2 hx])

end F32

theorem V3f.same_reduce {a b : V3f} (h : ∀ i, F32.Same (a.at i) (b.at i)) : F32.Same (a.reduce F32.mul) (b.reduce F32.mul) :=
  (h .x).mul ((h .y).mul (h .z))

namespace BBox
open F32

/-- The volume of the intersection does not depend on the order. -/
theorem Proper.iou_symm {a b : BBox} (ha : a.Proper) (hb : b.Proper) : Same (a.computeIoU b) (b.computeIoU a) := by
  unfold computeIoU
  rw [ha.valid, hb.valid, ha.axisAligned, hb.axisAligned]
  have e : (AABB != AABB) = false := rfl
  simp only [Bool.not_true, Bool.or_self, Bool.false_eq_true, if_false, e]
  have hi : Same ((((a.maxCorner.zip F32.min' b.maxCorner).sub (a.minCorner.zip F32.max' b.minCorner)).map (fun x => F32.max' x 0)).reduce F32.mul)
      ((((b.maxCorner.zip F32.min' a.maxCorner).sub (b.minCorner.zip F32.max' a.minCorner)).map (fun x => F32.max' x 0)).reduce F32.mul) := by
    apply V3f.same_reduce
    intro i
    rw [V3f.at_map, V3f.at_map, V3f.at_sub, V3f.at_sub, V3f.at_zip, V3f.at_zip, V3f.at_zip, V3f.at_zip]
    apply Same.max0
    exact (min'_comm (ha.maxCorner_val i).1 (hb.maxCorner_val i).1).sub (max'_comm (ha.minCorner_val i).1 (hb.minCorner_val i).1)
  rw [F32.add_comm b.volume]
  generalize ((((a.maxCorner.zip F32.min' b.maxCorner).sub (a.minCorner.zip F32.max' b.minCorner)).map (fun x => F32.max' x 0)).reduce F32.mul) = p at *
  generalize ((((b.maxCorner.zip F32.min' a.maxCorner).sub (b.minCorner.zip F32.max' a.minCorner)).map (fun x => F32.max' x 0)).reduce F32.mul) = q at *
  generalize hw : a.volume.add b.volume = w
  have pos : ∀ {c : BBox}, c.Proper → c.volume.neg? = false := by
    intro c hc
    unfold volume
    rw [hc.valid]
    have hd : ∀ i, (c.dims.at i).neg? = false := fun i => neg?_of_pos (hc.positive i)
    exact mul_neg? (hd .x) (mul_neg? (hd .y) (hd .z))
  have hneg : w.neg? = false := hw ▸ add_neg? (pos ha) (pos hb)
  rw [sub_same hneg hi]
  exact hi.div _
end BBox
end Verif
