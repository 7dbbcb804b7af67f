import Verif.Lemmas.Float32b
import Verif.Spec.Box
/-! # Bounding boxes in terms of rounded values -/

namespace Verif
open F32

theorem V3f.at_map (f : F32 → F32) (a : V3f) (i : Axis) : (a.map f).at i = f (a.at i) := by cases i <;> rfl
theorem V3f.at_zip (f : F32 → F32 → F32) (a b : V3f) (i : Axis) : (a.zip f b).at i = f (a.at i) (b.at i) := by cases i <;> rfl
theorem V3f.all_iff (p : F32 → F32 → Bool) (a b : V3f) : a.all p b = true ↔ ∀ i, p (a.at i) (b.at i) = true := by
  unfold V3f.all
  simp only [Bool.and_eq_true]
  exact ⟨fun h i => match i with | .x => h.1.1 | .y => h.1.2 | .z => h.2, fun h => ⟨⟨h .x, h .y⟩, h .z⟩⟩
theorem V3f.at_sub (a b : V3f) (i : Axis) : (a.sub b).at i = (a.at i).sub (b.at i) := V3f.at_zip ..
theorem V3f.at_add (a b : V3f) (i : Axis) : (a.add b).at i = (a.at i).add (b.at i) := V3f.at_zip ..

namespace F32
theorem zero_val : val 0 = 0 := by decide +kernel
theorem zero_notNan : isNan 0 = false := by decide +kernel
theorem zero_finite : F32.finite 0 = true := by decide +kernel

theorem max'_notNan {x y : F32} (hx : x.isNan = false) (hy : y.isNan = false) : (max' x y).isNan = false := by unfold max'; split <;> assumption
theorem min'_notNan {x y : F32} (hx : x.isNan = false) (hy : y.isNan = false) : (min' x y).isNan = false := by unfold min'; split <;> assumption
theorem max'_finite {x y : F32} (hx : F32.finite x = true) (hy : F32.finite y = true) : F32.finite (max' x y) = true := by unfold max'; split <;> assumption
theorem min'_finite {x y : F32} (hx : F32.finite x = true) (hy : F32.finite y = true) : F32.finite (min' x y) = true := by unfold min'; split <;> assumption
theorem max'_val {x y : F32} (hx : x.isNan = false) (hy : y.isNan = false) : (max' x y).val = max x.val y.val := by
  unfold max'
  have := lt_iff hx hy
  by_cases h : x.lt y = true
  · rw [if_pos h]; have := this.1 h; omega
  · rw [if_neg h]; have := mt this.2 h; omega
theorem min'_val {x y : F32} (hx : x.isNan = false) (hy : y.isNan = false) : (min' x y).val = min x.val y.val := by
  unfold min'
  have := lt_iff hy hx
  by_cases h : y.lt x = true
  · rw [if_pos h]; have := this.1 h; omega
  · rw [if_neg h]; have := mt this.2 h; omega

theorem neg?_of_pos {x : F32} (h : 0 < x.val) : x.neg? = false := by
  unfold val at h
  cases hn : x.neg?
  · rfl
  · rw [hn] at h; simp only [if_true] at h; omega

/-- Half of a positive number. -/
theorem half_pos {x : F32} (hx : F32.finite x = true) (h : 0 < x.val) :
    x.half.val = hf x.val.natAbs ∧ 2 * x.half.val ≤ x.val + 1 ∧ x.val ≤ 2 * x.half.val + 1 ∧ 0 ≤ x.half.val := by
  obtain ⟨h1, h2, h3⟩ := half_val hx
  rw [neg?_of_pos h] at h3
  have hb := hf_bound (b := x.magBits) (by rw [finite_mag] at hx; omega)
  have e := natAbs_val x
  rw [← e] at h3 hb
  simp only [Bool.false_eq_true, if_false] at h3
  refine ⟨h3, ?_⟩
  omega
end F32

namespace BBox

theorem Proper.valid {b : BBox} (h : b.Proper) : b.isValid = true := by
  unfold isValid
  rw [h.axisAligned]
  have key : ∀ i, F32.lt 0 (b.dims.at i) = true := fun i => by
    rw [lt_iff zero_notNan (finite_notNan (h.dims i)), zero_val]; exact h.positive i
  have hx := key .x; have hy := key .y; have hz := key .z
  simp only [V3f.at] at hx hy hz
  rw [hx, hy, hz]
  rfl

/-- A valid axis-aligned box with finite numbers is proper. -/
theorem proper_of {b : BBox} (h1 : b.isValid = true) (h2 : b.type = AABB) (h3 : b.dims.FiniteAt) (h4 : b.center.FiniteAt) : b.Proper := by
  refine ⟨h2, h3, h4, fun i => ?_⟩
  unfold isValid at h1
  rw [h2] at h1
  have e : (AABB == INVALID) = false := rfl
  simp only [e, Bool.false_eq_true, if_false, Bool.and_eq_true] at h1
  have := lt_iff zero_notNan (finite_notNan (h3 i))
  rw [zero_val] at this
  rw [V3f.coord, ← this]
  exact match i with | .x => h1.1.1 | .y => h1.1.2 | .z => h1.2

theorem Proper.noRotation {b : BBox} (h : b.Proper) : b.hasRotation = false := by unfold hasRotation; rw [h.axisAligned]; rfl

/-- `isInside` per axis. -/
theorem isInside_iff {b : BBox} {p : V3f} (hd : b.dims.FiniteAt) (hp : ∀ i, (p.at i).isNan = false) :
    b.isInside p = true ↔ ∀ i, ((p.coord i).natAbs : Int) ≤ (b.dims.at i).half.val := by
  have key : ∀ i, (((p.map F32.abs).sub (b.dims.map F32.half)).at i).isNan = false ∧
      ((((p.map F32.abs).sub (b.dims.map F32.half)).at i).val ≤ 0 ↔ ((p.coord i).natAbs : Int) ≤ (b.dims.at i).half.val) := by
    intro i
    rw [V3f.at_sub, V3f.at_map, V3f.at_map]
    have := sub_le_zero (abs_notNan (hp i)) (half_finite (hd i))
    rw [abs_val] at this
    exact this
  unfold isInside V3f.reduce
  generalize (p.map F32.abs).sub (b.dims.map F32.half) = v at *
  have n1 := max'_notNan (key .y).1 (key .z).1
  have n2 := max'_notNan (key .x).1 n1
  simp only [V3f.at] at n2 n1
  rw [le_iff n2 zero_notNan, zero_val, max'_val (x := v.x) (key .x).1 n1, max'_val (x := v.y) (y := v.z) (key .y).1 (key .z).1]
  constructor
  · intro h i
    rw [← (key i).2]
    cases i <;> simp only [V3f.at] <;> omega
  · intro h
    have hx := (key .x).2.2 (h .x); have hy := (key .y).2.2 (h .y); have hz := (key .z).2.2 (h .z)
    simp only [V3f.at] at hx hy hz
    omega

/-- `contains` per axis: the rounded distance from the centre against the rounded half of the dimension. -/
theorem Proper.contains_iff {b : BBox} {p : V3f} (hb : b.Proper) (hp : p.FiniteAt) :
    b.contains p = true ↔ ∀ i, ((fl (p.coord i - b.center.coord i)).natAbs : Int) ≤ (b.dims.at i).half.val := by
  unfold contains pointToBoxFrame
  rw [hb.valid, hb.noRotation]
  simp only [Bool.not_true, Bool.false_eq_true, if_false]
  have hs : ∀ i, ((p.sub b.center).at i).isNan = false ∧ (p.sub b.center).coord i = fl (p.coord i - b.center.coord i) := by
    intro i
    unfold V3f.coord
    rw [V3f.at_sub]
    exact sub_val (hp i) (hb.center i)
  rw [isInside_iff hb.dims (fun i => (hs i).1)]
  simp only [(hs _).2]

/-- The corners of a proper box. -/
theorem Proper.minCorner_val {b : BBox} (hb : b.Proper) (i : Axis) :
    (b.minCorner.at i).isNan = false ∧ b.minCorner.coord i = fl (b.center.coord i - (b.dims.at i).half.val) := by
  unfold minCorner V3f.coord
  rw [V3f.at_sub, V3f.at_map]
  exact sub_val (hb.center i) (half_finite (hb.dims i))
theorem Proper.maxCorner_val {b : BBox} (hb : b.Proper) (i : Axis) :
    (b.maxCorner.at i).isNan = false ∧ b.maxCorner.coord i = fl (b.center.coord i + (b.dims.at i).half.val) := by
  unfold maxCorner V3f.coord
  rw [V3f.at_add, V3f.at_map]
  exact add_val (hb.center i) (half_finite (hb.dims i))

theorem Proper.intersects_iff {a b : BBox} (ha : a.Proper) (hb : b.Proper) :
    a.intersects b = true ↔ ∀ i, a.minCorner.coord i < b.maxCorner.coord i ∧ b.minCorner.coord i < a.maxCorner.coord i := by
  unfold intersects
  rw [ha.valid, hb.valid, ha.axisAligned, hb.axisAligned]
  have e : (AABB != AABB) = false := rfl
  simp only [Bool.not_true, Bool.or_self, Bool.false_eq_true, if_false, e, Bool.and_eq_true, V3f.all_iff]
  have h1 : ∀ i, F32.lt (a.minCorner.at i) (b.maxCorner.at i) = true ↔ a.minCorner.coord i < b.maxCorner.coord i :=
    fun i => lt_iff (ha.minCorner_val i).1 (hb.maxCorner_val i).1
  have h2 : ∀ i, F32.lt (b.minCorner.at i) (a.maxCorner.at i) = true ↔ b.minCorner.coord i < a.maxCorner.coord i :=
    fun i => lt_iff (hb.minCorner_val i).1 (ha.maxCorner_val i).1
  constructor
  · rintro ⟨h3, h4⟩ i; exact ⟨(h1 i).1 (h3 i), (h2 i).1 (h4 i)⟩
  · intro h; exact ⟨fun i => (h1 i).2 (h i).1, fun i => (h2 i).2 (h i).2⟩

end BBox
end Verif

namespace Verif
namespace F32
theorem finite_of_val {x : F32} (h1 : x.isNan = false) (h2 : x.val = 0) : F32.finite x = true := by
  rw [finite_iff_val h1, h2]; exact Nat.two_pow_pos _
theorem val_zero_mag {x : F32} (h : x.val = 0) : x.magBits = 0 := by
  have h1 := natAbs_val x
  rw [h] at h1
  have : magVal x.magBits ≤ magVal 0 := by rw [← h1, magVal_zero]; exact Nat.le_refl _
  have := magVal_le_iff.1 this
  omega
theorem mul_zero {x y : F32} (hx : F32.finite x = true) (hy : y.isNan = false) (h : y.val = 0) :
    F32.finite (x.mul y) = true ∧ (x.mul y).val = 0 := by
  have hm := val_zero_mag h
  have e : x.mul y = pack (x.neg? != y.neg?) 0 := by
    unfold mul
    have hr : roundMag 0 (2 ^ 149) = 0 := by decide +kernel
    rw [finite_notNan hx, hy, finite_notInf hx, finite_notInf (finite_of_val hy h), hm, magVal_zero, Nat.mul_zero, hr]
    simp
  rw [e, finite_mag, magBits_pack (by omega), val_pack (by omega), magVal_zero]
  exact ⟨by omega, by split <;> rfl⟩
end F32
end Verif
