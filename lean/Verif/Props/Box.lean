import Verif.Lemmas.Box5
/-! # C55–C57: bounding boxes -/

namespace Verif
open F32
namespace BBox

/-! ## C55: containment -/

/-- C55: `contains` misses no point of the box, whatever the rounding. -/
theorem C55_no_point_missed (b : BBox) (p : V3f) (hb : b.Proper) (hp : p.FiniteAt) (h : b.Has p) : b.contains p = true := by
  rw [hb.contains_iff hp]
  intro i
  have h1 := half_pos (hb.dims i) (hb.positive i)
  rw [h1.1, natAbs_fl]
  have h2 := h i
  have h3 := hb.positive i
  have : magVal (roundMag (p.coord i - b.center.coord i).natAbs 1) ≤ hf (b.dims.coord i).natAbs := le_hf (by omega)
  exact Int.ofNat_le.2 this

/-- C55: a point that `contains` accepts is at most one part in `2^24` (and half a unit) outside of the box. -/
theorem C55_accepted_points_are_near (b : BBox) (p : V3f) (hb : b.Proper) (hp : p.FiniteAt) (h : b.contains p = true) (i : Axis) :
    2 * (2 ^ 24 - 1) * (p.coord i - b.center.coord i).natAbs ≤ 2 ^ 24 * (b.dims.coord i + 1) := by
  have h1 := (hb.contains_iff hp).1 h i
  have h2 := half_pos (hb.dims i) (hb.positive i)
  have h3 := val_finite (half_finite (hb.dims i))
  have h4 := fl_err (n := p.coord i - b.center.coord i) (by omega)
  have h5 : (b.dims.at i).val = b.dims.coord i := rfl
  rw [h5] at h2
  omega

/-- C55: with a point, everything between it and another accepted point is accepted. -/
theorem C55_between (b : BBox) (p q r : V3f) (hb : b.Proper) (hp : p.FiniteAt) (hq : q.FiniteAt) (hr : r.FiniteAt)
    (h1 : b.contains p = true) (h2 : b.contains q = true) (h : ∀ i, p.coord i ≤ r.coord i ∧ r.coord i ≤ q.coord i) : b.contains r = true := by
  rw [hb.contains_iff hp] at h1
  rw [hb.contains_iff hq] at h2
  rw [hb.contains_iff hr]
  intro i
  have h3 := h1 i
  have h4 := h2 i
  have h5 := fl_mono (show p.coord i - b.center.coord i ≤ r.coord i - b.center.coord i by have := h i; omega)
  have h6 := fl_mono (show r.coord i - b.center.coord i ≤ q.coord i - b.center.coord i by have := h i; omega)
  omega

/-- A valid box of any type contains its centre, if the numbers are finite. -/
theorem C55_center (b : BBox) (hv : b.isValid = true) (hd : b.dims.FiniteAt) (hc : b.center.FiniteAt) (hr : ∀ x ∈ b.rot.data, F32.finite x = true) :
    b.contains b.center = true := by
  unfold contains
  rw [hv]
  simp only [Bool.not_true, Bool.false_eq_true, if_false]
  have hz : ∀ i, ((b.center.sub b.center).at i).isNan = false ∧ (b.center.sub b.center).coord i = 0 := by
    intro i
    unfold V3f.coord
    rw [V3f.at_sub]
    have := sub_val (hc i) (hc i)
    rw [Int.sub_self, fl_zero] at this
    exact this
  have key : ∀ i, ((b.pointToBoxFrame b.center).at i).isNan = false ∧ (b.pointToBoxFrame b.center).coord i = 0 := by
    unfold pointToBoxFrame
    split
    · generalize b.center.sub b.center = v at *
      have term : ∀ (n : Nat) (i : Axis), F32.finite ((b.rot.data.getD n 0).mul (v.at i)) = true ∧ ((b.rot.data.getD n 0).mul (v.at i)).val = 0 := by
        intro n i
        have hf : F32.finite (b.rot.data.getD n 0) = true := by
          rw [List.getD_eq_getElem?_getD]
          cases hg : b.rot.data[n]? with
          | none => exact zero_finite
          | some x => exact hr x (List.mem_of_getElem? hg)
        exact mul_zero hf (hz i).1 (hz i).2
      have row : ∀ (k l m : Nat), (((b.rot.data.getD k 0).mul (v.at .x)).add (((b.rot.data.getD l 0).mul (v.at .y)).add ((b.rot.data.getD m 0).mul (v.at .z)))).isNan = false ∧
          (((b.rot.data.getD k 0).mul (v.at .x)).add (((b.rot.data.getD l 0).mul (v.at .y)).add ((b.rot.data.getD m 0).mul (v.at .z)))).val = 0 := by
        intro k l m
        have h1 := add_val (term l .y).1 (term m .z).1
        rw [(term l .y).2, (term m .z).2, Int.add_zero, fl_zero] at h1
        have h2 := add_val (term k .x).1 (finite_of_val h1.1 h1.2)
        rw [(term k .x).2, h1.2, Int.add_zero, fl_zero] at h2
        exact h2
      intro i
      cases i
      · exact row 0 1 2
      · exact row 3 4 5
      · exact row 6 7 8
    · exact hz
  rw [isInside_iff hd (fun i => (key i).1)]
  intro i
  rw [(key i).2]
  have : 0 < (b.dims.at i).val := by
    unfold isValid at hv
    have hl := lt_iff zero_notNan (finite_notNan (hd i))
    rw [zero_val] at hl
    rw [← hl]
    split at hv
    · cases hv
    · simp only [Bool.and_eq_true] at hv
      exact match i with | .x => hv.1.1 | .y => hv.1.2 | .z => hv.2
  exact (half_pos (hd i) this).2.2.2

/-- An invalid box contains nothing and intersects nothing. -/
theorem C55_invalid (b : BBox) (h : b.isValid = false) : (∀ p, b.contains p = false) ∧ b.volume = 0 ∧ (∀ a, b.intersects a = false ∧ a.intersects b = false) := by
  refine ⟨fun p => by unfold contains; rw [h]; rfl, by unfold volume; rw [h]; rfl, fun a => ⟨by unfold intersects; rw [h]; rfl, ?_⟩⟩
  unfold intersects; rw [h]; simp

/-! ## C56: intersection -/

/-- C56: `intersects` does not depend on the order, for boxes of any type and any numbers. -/
theorem C56_symmetric (a b : BBox) : a.intersects b = b.intersects a := by
  unfold intersects
  rw [Bool.or_comm (!a.isValid), Bool.or_comm (a.type != AABB)]
  split
  · rfl
  · split
    · rfl
    · rw [Bool.and_comm, V3f.all_swap a.maxCorner, ← V3f.all_swap b.maxCorner]

/-- C56: boxes that `intersects` reports do overlap (up to the unit that halving an odd multiple of the smallest float may cost). -/
theorem C56_reported_boxes_overlap (a b : BBox) (ha : a.Proper) (hb : b.Proper) (h : a.intersects b = true) (i : Axis) :
    2 * (a.center.coord i - b.center.coord i).natAbs < a.dims.coord i + b.dims.coord i + 2 := by
  have h1 := (ha.intersects_iff hb).1 h i
  rw [(ha.minCorner_val i).2, (hb.maxCorner_val i).2, (hb.minCorner_val i).2, (ha.maxCorner_val i).2] at h1
  have h2 := fl_lt h1.1
  have h3 := fl_lt h1.2
  have h4 := half_pos (ha.dims i) (ha.positive i)
  have h5 := half_pos (hb.dims i) (hb.positive i)
  have e1 : (a.dims.at i).val = a.dims.coord i := rfl
  have e2 : (b.dims.at i).val = b.dims.coord i := rfl
  omega

/-- C56: boxes that overlap by more than the precision of their coordinates are reported. -/
theorem C56_overlapping_boxes_reported (a b : BBox) (ha : a.Proper) (hb : b.Proper)
    (h : ∀ i, 2 * ((a.center.coord i).natAbs + (b.center.coord i).natAbs) + (a.dims.coord i + b.dims.coord i) + 2 <
      2 ^ 24 * (a.dims.coord i + b.dims.coord i - 2 * (a.center.coord i - b.center.coord i).natAbs - 2)) : a.intersects b = true := by
  rw [ha.intersects_iff hb]
  intro i
  rw [(ha.minCorner_val i).2, (hb.maxCorner_val i).2, (hb.minCorner_val i).2, (ha.maxCorner_val i).2]
  have h4 := half_pos (ha.dims i) (ha.positive i)
  have h5 := half_pos (hb.dims i) (hb.positive i)
  have e1 : (a.dims.at i).val = a.dims.coord i := rfl
  have e2 : (b.dims.at i).val = b.dims.coord i := rfl
  have hi := h i
  have key : ∀ {x y cx cy : Int}, -(top : Int) < cy → cx < top → fl cx = cx → fl cy = cy → x ≤ cx → cy ≤ y → x.natAbs + y.natAbs < 2 ^ 24 * (y - x) → fl x < fl y := by
    intro x y cx cy h1 h2 h3 h4 h5 h6 h7
    have m1 := fl_mono h5
    have m2 := fl_mono h6
    have b1 := fl_le_top x
    have b2 := fl_le_top y
    rw [h3] at m1
    rw [h4] at m2
    by_cases t1 : (fl x).natAbs < top
    · by_cases t2 : (fl y).natAbs < top
      · have := fl_err t1
        have := fl_err t2
        omega
      · omega
    · omega
  have c1 := val_finite (ha.center i)
  have c2 := val_finite (hb.center i)
  have c3 := fl_val (finite_notNan (ha.center i))
  have c4 := fl_val (finite_notNan (hb.center i))
  have e3 : (a.center.at i).val = a.center.coord i := rfl
  have e4 : (b.center.at i).val = b.center.coord i := rfl
  rw [e3] at c1 c3
  rw [e4] at c2 c4
  exact ⟨key c2.1 c1.2 c3 c4 (by omega) (by omega) (by omega), key c1.1 c2.2 c4 c3 (by omega) (by omega) (by omega)⟩

/-! ## Exact on a grid -/

/-- C55: for numbers on a grid, `contains` is exact. -/
theorem C55_exact_on_a_grid (b : BBox) (p : V3f) (g : Nat) (hg : 1 ≤ g ∧ g ≤ 252) (hb : b.Proper) (hp : p.FiniteAt)
    (h1 : b.center.OnGrid g) (h2 : b.dims.OnGrid g) (h3 : p.OnGrid g) : b.contains p = true ↔ b.Has p := by
  refine ⟨fun h i => ?_, fun h => C55_no_point_missed b p hb hp h⟩
  have h4 := (hb.contains_iff hp).1 h i
  obtain ⟨c, h, hc⟩ := hb.cells hg h1 h2 i
  obtain ⟨k, hk, bk⟩ := h3.cell i
  have := hc.bc
  rw [hc.half, hk, hc.center, ← Int.mul_sub, fl_cells (by omega) _ (by omega)] at h4
  rw [hk, hc.center, hc.dims, ← Int.mul_sub]
  rw [Int.mul_left_comm] at *
  omega

/-- C56: for numbers on a grid, `intersects` is exact: the open boxes overlap. -/
theorem C56_exact_on_a_grid (a b : BBox) (g : Nat) (hg : 1 ≤ g ∧ g ≤ 252) (ha : a.Proper) (hb : b.Proper)
    (h1 : a.center.OnGrid g) (h2 : a.dims.OnGrid g) (h3 : b.center.OnGrid g) (h4 : b.dims.OnGrid g) :
    a.intersects b = true ↔ ∀ i, 2 * (a.center.coord i - b.center.coord i).natAbs < a.dims.coord i + b.dims.coord i := by
  rw [ha.intersects_iff hb]
  have key : ∀ i, (a.minCorner.coord i < b.maxCorner.coord i ∧ b.minCorner.coord i < a.maxCorner.coord i) ↔
      2 * (a.center.coord i - b.center.coord i).natAbs < a.dims.coord i + b.dims.coord i := by
    intro i
    obtain ⟨ca, ka, A⟩ := ha.cells hg h1 h2 i
    obtain ⟨cb, kb, B⟩ := hb.cells hg h3 h4 i
    rw [A.min, B.max, B.min, A.max, A.center, B.center, A.dims, B.dims, cell_lt, cell_lt, ← Int.mul_sub, ← Int.mul_add, Int.natAbs_mul, Int.natAbs_pow]
    have e : (2 : Int) * ((Int.natAbs 2 ^ g * (2 * ca - 2 * cb).natAbs : Nat) : Int) = 2 ^ g * (2 * (2 * ca - 2 * cb).natAbs) := by
      rw [Int.natCast_mul, Int.natCast_pow, Int.mul_left_comm]; rfl
    rw [e, cell_lt]
    omega
  exact ⟨fun h i => (key i).1 (h i), fun h i => (key i).2 (h i)⟩

/-! ## Intersection over union -/

/-- C56: `computeIoU` does not depend on the order: both results are NaN or both have the same value. -/
theorem C56_iou_symmetric (a b : BBox) (ha : a.Proper) (hb : b.Proper) :
    (a.computeIoU b).isNan = (b.computeIoU a).isNan ∧ ((a.computeIoU b).isNan = false → (a.computeIoU b).val = (b.computeIoU a).val) := ha.iou_symm hb

/-- C56: zero for invalid boxes and for boxes that are not axis-aligned. -/
theorem C56_iou_unsupported (a b : BBox) (h : a.isValid = false ∨ b.isValid = false ∨ a.type ≠ AABB ∨ b.type ≠ AABB) : a.computeIoU b = 0 ∧ a.intersects b = false := by
  unfold computeIoU intersects
  by_cases hv : (!a.isValid || !b.isValid) = true
  · rw [if_pos hv, if_pos hv]; exact ⟨rfl, rfl⟩
  · rw [if_neg hv, if_neg hv]
    have : (a.type != AABB || b.type != AABB) = true := by
      simp only [Bool.or_eq_true, Bool.not_eq_true', bne_iff_ne] at *
      rcases h with h | h | h | h
      · exact absurd (.inl h) hv
      · exact absurd (.inr h) hv
      · exact .inl h
      · exact .inr h
    rw [if_pos this, if_pos this]; exact ⟨rfl, rfl⟩

/-- C56: boxes that `intersects` does not report have no intersection over union: the result is zero, or NaN. -/
theorem C56_iou_disjoint (a b : BBox) (ha : a.Proper) (hb : b.Proper) (h : a.intersects b = false) :
    (a.computeIoU b).isNan = true ∨ (a.computeIoU b).val = 0 := by
  rw [ha.iou_eq hb]
  obtain ⟨i, hi⟩ := ha.overlap_zero hb h
  exact div_zero_left (reduce_zero hi) _

/-- C56: for boxes on a grid whose spacing is between `2^-48` and `2^17`, the intersection over union is a number between 0 and 1, positive exactly if
the boxes intersect, and 1 for two boxes that are the same. -/
theorem C56_iou_on_a_grid (a b : BBox) (g : Nat) (hg : 100 ≤ g ∧ g ≤ 165) (ha : a.Proper) (hb : b.Proper)
    (h1 : a.center.OnGrid g) (h2 : a.dims.OnGrid g) (h3 : b.center.OnGrid g) (h4 : b.dims.OnGrid g) :
    F32.le 0 (a.computeIoU b) = true ∧ F32.le (a.computeIoU b) F32.one = true ∧
    (F32.lt 0 (a.computeIoU b) = true ↔ a.intersects b = true) ∧
    ((∀ i, a.center.coord i = b.center.coord i ∧ a.dims.coord i = b.dims.coord i) → (a.computeIoU b).val = F32.one.val) := by
  have hg' : 1 ≤ g ∧ g ≤ 252 := by omega
  -- volumes
  have vol : ∀ x : BBox, x.Proper → x.center.OnGrid g → x.dims.OnGrid g → F32.finite x.volume = true ∧ F32.finite (x.dims.y.mul x.dims.z) = true ∧
      (2 : Int) ^ (3 * (g + 1) - 298) ≤ x.volume.val ∧ x.volume.val ≤ (2 : Int) ^ (3 * (g + 22) - 298) := by
    intro x hx k1 k2
    rw [hx.volume_eq]
    have l : ∀ i, (2 : Int) ^ (g + 1) ≤ x.dims.coord i ∧ x.dims.coord i ≤ 2 ^ (g + 22) := by
      intro i
      obtain ⟨c, h, C⟩ := hx.cells hg' k1 k2 i
      rw [C.dims, Int.pow_succ, Int.pow_add]
      have := C.bh
      exact ⟨cell_le.2 (by omega), cell_le.2 (by omega)⟩
    have r := reduce_bounds hx.dims (fun i => (l i).1) (fun i => (l i).2) (by omega) (by omega) (by omega)
    have s : ∀ i, (x.dims.at i).neg? = false := fun i => neg?_of_pos (hx.positive i)
    exact ⟨r.1, (mul_le (hx.dims .y) (hx.dims .z) (s .y) (s .z) (l .y).2 (l .z).2 (by omega) (by omega)).2, r.2.1, r.2.2⟩
  obtain ⟨fa, fa', la, ua⟩ := vol a ha h1 h2
  obtain ⟨fb, fb', lb, ub⟩ := vol b hb h3 h4
  have pa : 0 < a.volume.val := Int.lt_of_lt_of_le cell_pos la
  have pb : 0 < b.volume.val := Int.lt_of_lt_of_le cell_pos lb
  have hs : a.volume.val + b.volume.val ≤ 2 ^ (3 * (g + 22) - 297) := by
    have e : (2 : Int) ^ (3 * (g + 22) - 297) = 2 ^ (3 * (g + 22) - 298) * 2 := by
      rw [← Int.pow_succ]; exact congrArg _ (by omega)
    rw [e]; omega
  have hs' : a.volume.val + b.volume.val ≤ 2 ^ 276 := by
    refine Int.le_trans hs ?_
    have e : ∀ n : Nat, ((2 ^ n : Nat) : Int) = 2 ^ n := fun n => Int.natCast_pow 2 n
    rw [← e, ← e]
    exact Int.ofNat_le.2 (Nat.pow_le_pow_right (by decide) (by omega))
  have size : ∀ i, F32.finite ((a.overlapSize b).at i) = true ∧ (a.overlapSize b).coord i ≤ a.dims.coord i ∧ (a.overlapSize b).coord i ≤ b.dims.coord i ∧
      0 ≤ (a.overlapSize b).coord i ∧ (0 < (a.overlapSize b).coord i → (2 : Int) ^ g ≤ (a.overlapSize b).coord i) ∧ (a.overlapSize b).coord i ≤ 2 ^ (g + 22) ∧
      (a.minCorner.coord i < b.maxCorner.coord i ∧ b.minCorner.coord i < a.maxCorner.coord i → 0 < (a.overlapSize b).coord i) ∧
      (a.center.coord i = b.center.coord i ∧ a.dims.coord i = b.dims.coord i → (a.overlapSize b).coord i = a.dims.coord i) := by
    intro i
    obtain ⟨ca, ka, A⟩ := ha.cells hg' h1 h2 i
    obtain ⟨cb, kb, B⟩ := hb.cells hg' h3 h4 i
    obtain ⟨o1, o2⟩ := overlap_cells (by omega) i A B (ha.maxCorner_val i).1 (hb.maxCorner_val i).1 (ha.minCorner_val i).1 (hb.minCorner_val i).1
    have k1 := A.bh
    have k2 := B.bh
    have z : (0 : Int) = 2 ^ g * 0 := (Int.mul_zero _).symm
    have o : (2 : Int) ^ g = 2 ^ g * 1 := (Int.mul_one _).symm
    rw [o2, A.dims, B.dims, A.min, A.max, B.min, B.max, A.center, B.center, cell_lt, cell_lt]
    refine ⟨o1, cell_le.2 (by omega), cell_le.2 (by omega), ?_, ?_, ?_, ?_, ?_⟩
    · rw [z]; exact cell_le.2 (by omega)
    · intro h
      rw [z] at h
      have h := cell_lt.1 h
      conv => lhs; rw [o]
      exact cell_le.2 (by omega)
    · rw [Int.pow_add]; exact cell_le.2 (by omega)
    · intro h
      conv => lhs; rw [z]
      exact cell_lt.2 (by omega)
    · intro ⟨e1, e2⟩
      have e1 := Int.mul_eq_mul_left_iff (Int.ne_of_gt (cell_pos (g := g))) |>.1 e1
      have e2 := Int.mul_eq_mul_left_iff (Int.ne_of_gt (cell_pos (g := g))) |>.1 e2
      congr 1
      omega
  have fs : (a.overlapSize b).FiniteAt := fun i => (size i).1
  rw [ha.iou_eq hb]
  cases hint : a.intersects b with
  | false =>
    obtain ⟨i, hi⟩ := ha.overlap_zero hb hint
    have fyz : F32.finite ((a.overlapSize b).y.mul (a.overlapSize b).z) = true := by
      by_cases hz : 0 < (a.overlapSize b).coord .y ∧ 0 < (a.overlapSize b).coord .z
      · exact (mul_le (fs .y) (fs .z) (neg?_of_pos hz.1) (neg?_of_pos hz.2) (size .y).2.2.2.2.2.1 (size .z).2.2.2.2.2.1 (by omega) (by omega)).2
      · have : (a.overlapSize b).coord .y = 0 ∨ (a.overlapSize b).coord .z = 0 := by
          have := (size .y).2.2.2.1
          have := (size .z).2.2.2.1
          omega
        rcases this with h | h
        · rw [mul_comm]; exact (mul_zero (fs .z) (finite_notNan (fs .y)) h).1
        · exact (mul_zero (fs .y) (finite_notNan (fs .z)) h).1
    have nn : ((a.overlapSize b).reduce F32.mul).isNan = false := mul_notNan (fs .x) fyz
    have hz := (reduce_zero hi).resolve_left (by rw [nn]; decide)
    have hv := (val_of_mag hz).2.2.1
    generalize (a.overlapSize b).reduce F32.mul = x at *
    obtain ⟨r1, r2, _⟩ := ratio (x := x) fa fb pa pb (by omega) nn (by omega) (by omega) hs'
    have fx := (val_of_mag hz).2.2.2
    have dn := div_notNan fx r1 r2
    have dv := (div_zero_left (.inr hz) ((a.volume.add b.volume).sub x)).resolve_left (by rw [dn]; decide)
    have on : F32.one.isNan = false := by decide +kernel
    rw [le_iff zero_notNan dn, le_iff dn on, lt_iff zero_notNan dn, dv, zero_val, one_val]
    refine ⟨Int.le_refl _, by decide, by simp, fun h => ?_⟩
    exfalso
    have := (C56_exact_on_a_grid a b g hg' ha hb h1 h2 h3 h4).2 (fun i => by
      have := h i
      have := ha.positive i
      have := hb.positive i
      omega)
    rw [hint] at this
    cases this
  | true =>
    have pos : ∀ i, 0 < (a.overlapSize b).coord i := fun i => (size i).2.2.2.2.2.2.1 ((ha.intersects_iff hb).1 hint i)
    obtain ⟨fx, lx, ux⟩ := reduce_bounds fs (fun i => (size i).2.2.2.2.1 (pos i)) (fun i => (size i).2.2.2.2.2.1) (by omega) (by omega) (by omega)
    have fyz := (mul_le (fs .y) (fs .z) (neg?_of_pos (pos .y)) (neg?_of_pos (pos .z)) (size .y).2.2.2.2.2.1 (size .z).2.2.2.2.2.1 (by omega) (by omega)).2
    have m1 := reduce_mono fs ha.dims pos (fun i => (size i).2.1) fyz fa'
    have m2 := reduce_mono fs hb.dims pos (fun i => (size i).2.2.1) fyz fb'
    rw [← ha.volume_eq] at m1
    rw [← hb.volume_eq] at m2
    have heq : (∀ i, a.center.coord i = b.center.coord i ∧ a.dims.coord i = b.dims.coord i) →
        ((a.overlapSize b).reduce F32.mul).val = a.volume.val ∧ ((a.overlapSize b).reduce F32.mul).val = b.volume.val := by
      intro h
      have q := fun i => (size i).2.2.2.2.2.2.2 (h i)
      have m3 := reduce_mono ha.dims fs ha.positive (fun i => Int.le_of_eq (q i).symm) fa' fyz
      have m4 := reduce_mono hb.dims fs hb.positive (fun i => Int.le_of_eq ((h i).2.symm.trans (q i).symm)) fb' fyz
      rw [← ha.volume_eq] at m3
      rw [← hb.volume_eq] at m4
      omega
    have px : 0 < ((a.overlapSize b).reduce F32.mul).val := Int.lt_of_lt_of_le cell_pos lx
    generalize (a.overlapSize b).reduce F32.mul = x at *
    obtain ⟨r1, r2, r3, r4, r5⟩ := ratio (x := x) fa fb pa pb (Int.le_of_lt px) (finite_notNan fx) m1 m2 hs'
    have dn := div_notNan fx r1 r2
    have on : F32.one.isNan = false := by decide +kernel
    have d1 := div_le_one fx r1 (neg?_of_pos px) r2 r3
    have u1 : ((a.volume.add b.volume).sub x).val ≤ (2 : Int) ^ (3 * (g + 22) - 297) := by
      have := fl_mono hs
      have e := roundMag_pow (n := 3 * (g + 22) - 297) (by omega)
      have e' := fl_ofNat (2 ^ (3 * (g + 22) - 297))
      rw [e] at e'
      have e2 : (((2 : Nat) ^ (3 * (g + 22) - 297) : Nat) : Int) = (2 : Int) ^ (3 * (g + 22) - 297) := Int.natCast_pow ..
      rw [e2] at e'
      rw [e'] at this
      omega
    have dp := div_pos fx r1 lx r2 u1 (by omega)
    rw [le_iff zero_notNan dn, le_iff dn on, lt_iff zero_notNan dn, zero_val]
    refine ⟨Int.le_of_lt dp, d1, by simp [dp], fun h => ?_⟩
    obtain ⟨e1, e2⟩ := heq h
    have e3 := r5 e1 e2
    rw [(div_of_nonneg fx r1 (neg?_of_pos px) r2).2, e3, ← (div_of_nonneg fx fx (neg?_of_pos px) px).2]
    exact div_eq_one fx px

end BBox
end Verif
