import Verif.Props.BoxFit
/-!
# C55–C57: cases that meet the hypotheses, and what does not hold for boxes

Floats are written as their bits, with the number in a comment.
-/

namespace Verif
open F32
namespace BBox

/-! ## Deciding the hypotheses -/

theorem axes {P : Axis → Prop} (h : P .x ∧ P .y ∧ P .z) : ∀ i, P i
  | .x => h.1
  | .y => h.2.1
  | .z => h.2.2

instance {P : Axis → Prop} [DecidablePred P] : Decidable (∀ i, P i) :=
  decidable_of_iff (P .x ∧ P .y ∧ P .z) ⟨axes, fun h => ⟨h .x, h .y, h .z⟩⟩
instance (v : V3f) : Decidable v.FiniteAt := inferInstanceAs (Decidable (∀ i, F32.finite (v.at i) = true))
instance (g : Nat) (v : V3f) : Decidable (v.OnGrid g) :=
  inferInstanceAs (Decidable (∀ i, (2 : Int) ^ (g + 1) ∣ v.coord i ∧ (v.coord i).natAbs < 2 ^ 21 * 2 ^ (g + 1)))
instance (b : BBox) (p : V3f) : Decidable (b.Has p) :=
  inferInstanceAs (Decidable (∀ i, 2 * (p.coord i - b.center.coord i).natAbs ≤ b.dims.coord i))
instance (b : BBox) : Decidable b.Proper :=
  decidable_of_iff (b.type = AABB ∧ b.dims.FiniteAt ∧ b.center.FiniteAt ∧ ∀ i, 0 < b.dims.coord i)
    ⟨fun ⟨h1, h2, h3, h4⟩ => ⟨h1, h2, h3, h4⟩, fun h => ⟨h.1, h.2, h.3, h.4⟩⟩

/-! ## Samples -/

/-- A box of size 2 × 4 × 1 around (1, 2, 3) -/
def sampleA : BBox := aabb ⟨0x40000000, 0x40800000, 0x3f800000⟩ ⟨0x3f800000, 0x40000000, 0x40400000⟩
/-- A box of size 4 × 2 × 2 around (3, 3, 2.5) -/
def sampleB : BBox := aabb ⟨0x40800000, 0x40000000, 0x40000000⟩ ⟨0x40400000, 0x40400000, 0x40200000⟩
/-- A box of size 0.1 in each direction around (10.05, 5.03, 3.1) -/
def sampleC : BBox := aabb ⟨0x3dcccccd, 0x3dcccccd, 0x3dcccccd⟩ ⟨0x4120cccd, 0x40a0f5c3, 0x40466666⟩
/-- the same size around (10.1, 5.03, 3.1) -/
def sampleD : BBox := aabb ⟨0x3dcccccd, 0x3dcccccd, 0x3dcccccd⟩ ⟨0x4121999a, 0x40a0f5c3, 0x40466666⟩
/-- (1.5, 3, 3) -/
def sampleP : V3f := ⟨0x3fc00000, 0x40400000, 0x40400000⟩
/-- (10.05, 5, 3.1) -/
def sampleQ : V3f := ⟨0x4120cccd, 0x40a00000, 0x40466666⟩
/-- an unused fit of yaw-aligned boxes -/
def noFit : List V3f → BBox := fun _ => {}

-- C55_no_point_missed, C55_accepted_points_are_near, C55_between: the hypotheses hold off and on the grid
example : sampleA.Proper ∧ sampleB.Proper ∧ sampleC.Proper ∧ sampleD.Proper ∧ sampleP.FiniteAt ∧ sampleQ.FiniteAt := by decide +kernel
example : sampleA.Has sampleP ∧ sampleC.Has sampleQ ∧ sampleA.contains sampleP = true ∧ sampleC.contains sampleQ = true ∧
    sampleA.contains sampleQ = false := by decide +kernel
example : ∀ i, sampleC.center.coord i ≤ sampleC.center.coord i ∧ sampleQ.coord i ≤ sampleC.center.coord i := by decide +kernel
-- C56_overlapping_boxes_reported
example : ∀ i, 2 * ((sampleC.center.coord i).natAbs + (sampleD.center.coord i).natAbs) + (sampleC.dims.coord i + sampleD.dims.coord i) + 2 <
      2 ^ 24 * (sampleC.dims.coord i + sampleD.dims.coord i - 2 * (sampleC.center.coord i - sampleD.center.coord i).natAbs - 2) := by decide +kernel
-- the grids: multiples of 2^-12 below 512
example : sampleA.center.OnGrid 136 ∧ sampleA.dims.OnGrid 136 ∧ sampleB.center.OnGrid 136 ∧ sampleB.dims.OnGrid 136 ∧ sampleP.OnGrid 136 := by decide +kernel
-- the intersection has size 1 × 2 × 1 of 8 + 16 - 2: 1/11
example : sampleA.intersects sampleB = true ∧ sampleA.computeIoU sampleB = 0x3dba2e8c ∧ sampleA.computeIoU sampleA = F32.one := by decide +kernel
-- boxes that touch do not intersect: one of size 2 around (3, 2, 3)
example : sampleA.intersects (aabb ⟨0x40000000, 0x40000000, 0x40000000⟩ ⟨0x40400000, 0x40000000, 0x40400000⟩) = false := by decide +kernel
-- C57: fits and merges
example : (∀ q ∈ [sampleP, sampleQ, sampleA.center], q.FiniteAt ∧ ∀ i, (q.coord i).natAbs ≤ 2 ^ 153) ∧
    (extract noFit [sampleP, sampleQ, sampleA.center] AABB).isValid = true := by decide +kernel
example : (∀ q ∈ [sampleP, sampleA.center, sampleB.dims], q.OnGrid 136) ∧ (extract noFit [sampleP, sampleA.center, sampleB.dims] AABB).isValid = true := by
  decide +kernel
example : ∀ i, 2 * (sampleC.center.coord i).natAbs + sampleC.dims.coord i + 1 ≤ 2 * (2 ^ 153 : Nat) := by decide +kernel
-- merged: (0..5) × (0..4) × (1.5..3.5)
example : sampleA.merge noFit sampleB = aabb ⟨0x40a00000, 0x40800000, 0x40000000⟩ ⟨0x40200000, 0x40000000, 0x40200000⟩ := by decide +kernel

/-! ## C55, C56: what does not hold off a grid -/

/-- A box need not contain the corners it reports: for size 3 around `2^24` the corner `2^24 + 1.5` is not a float; `corners` reports
`2^24 + 2`, which `contains` rejects. -/
theorem C55_not_corners : ∃ b : BBox, b.Proper ∧ ∃ p ∈ b.corners, p.FiniteAt ∧ b.contains p = false :=
  ⟨aabb ⟨0x40400000, 0x40400000, 0x40400000⟩ ⟨0x4b800000, 0x4b800000, 0x4b800000⟩, by decide +kernel⟩

/-- The intersection over union of a box and itself can be larger than one, for ordinary numbers (1.000013). -/
theorem C56_not_iou_at_most_one : F32.lt F32.one (sampleC.computeIoU sampleC) = true := by decide +kernel
/-- negative: size 3 around `2^24` (−6.4) -/
theorem C56_not_iou_nonnegative : ∃ b : BBox, b.Proper ∧ F32.lt (b.computeIoU b) 0 = true :=
  ⟨aabb ⟨0x40400000, 0x40400000, 0x40400000⟩ ⟨0x4b800000, 0x4b800000, 0x4b800000⟩, by decide +kernel⟩
/-- zero: size 1 around `10^8` -/
theorem C56_not_iou_positive : ∃ b : BBox, b.Proper ∧ (b.computeIoU b).val = 0 ∧ b.intersects b = false :=
  ⟨aabb ⟨0x3f800000, 0x3f800000, 0x3f800000⟩ ⟨0x4cbebc20, 0x4cbebc20, 0x4cbebc20⟩, by decide +kernel⟩
/-- NaN: size `10^-17` around the origin, whose volume is rounded to zero -/
theorem C56_not_iou_a_number : ∃ b : BBox, b.Proper ∧ b.intersects b = true ∧ (b.computeIoU b).isNan = true :=
  ⟨aabb ⟨0x233877aa, 0x233877aa, 0x233877aa⟩ ⟨0, 0, 0⟩, by decide +kernel⟩
/-- A valid oriented box does not intersect itself (not implemented), although it contains its centre. -/
theorem C56_oriented_boxes_never_intersect : ∃ b : BBox, b.isValid = true ∧ b.contains b.center = true ∧ b.intersects b = false ∧ b.computeIoU b = 0 :=
  ⟨{ sampleA with type := OBB }, by decide +kernel⟩

/-! ## C57: what does not hold off a grid -/

/-- The box fitted to two points does not contain one of them: (1, 1, 1) and (1 + 2^-23, 2, 2). -/
theorem C57_not_fit_contains : ∃ p q : V3f, p.FiniteAt ∧ q.FiniteAt ∧ (extract noFit [p, q] AABB).isValid = true ∧ (extract noFit [p, q] AABB).contains q = false :=
  ⟨⟨0x3f800000, 0x3f800000, 0x3f800000⟩, ⟨0x3f800001, 0x40000000, 0x40000000⟩, by decide +kernel⟩
/-- The box fitted to a single point, or to points in a plane along the axes, is invalid and contains nothing. -/
theorem C57_not_fit_flat (raabb : List V3f → BBox) (p : V3f) : p.FiniteAt → (∀ i, (p.coord i).natAbs < 2 ^ 276) → (extract raabb [p] AABB).isValid = false := by
  intro h1 h2
  have := (C57_fit raabb p [] (by simpa using h1) (by simpa using h2)).2.2.2.2
  cases hv : (extract raabb [p] AABB).isValid with
  | false => rfl
  | true =>
    obtain ⟨q, hq, r, hr, h⟩ := this.1 hv .x
    simp only [List.mem_singleton] at hq hr
    subst hq hr
    exact absurd rfl h
/-- Merging two valid oriented boxes gives an invalid box: the fit of type OBB is not implemented. -/
theorem C57_merging_oriented_boxes (raabb : List V3f → BBox) (a b : BBox) (h1 : a.isValid = true) (h2 : b.isValid = true) (h3 : a.type = OBB) :
    a.merge raabb b = {} ∧ (a.merge raabb b).isValid = false := by
  have : a.merge raabb b = {} := by
    unfold merge mergeGeneral
    rw [h1, h2, h3]
    show extract raabb (a.corners ++ b.corners) OBB = {}
    cases a.corners ++ b.corners <;> rfl
  rw [this]; exact ⟨rfl, rfl⟩
example : { sampleA with type := OBB }.isValid = true ∧ sampleB.isValid = true := by decide +kernel

end BBox
end Verif
