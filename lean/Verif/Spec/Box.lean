import Verif.Model.Box
/-!
# Specification of bounding boxes

Coordinates are compared as exact numbers: `V3f.coord p i` is the exact value of a finite coordinate, in units of `2^-149` (the smallest positive
float), so that every finite float is an integer. "One part in `2^24`" is the precision of a float.
-/

namespace Verif

inductive Axis | x | y | z
  deriving DecidableEq, Repr

/-- The float of a coordinate. -/
def V3f.at (a : V3f) : Axis → F32
  | .x => a.x
  | .y => a.y
  | .z => a.z
/-- The exact value of a coordinate, in units of `2^-149`. -/
def V3f.coord (a : V3f) (i : Axis) : Int := (a.at i).val
/-- Neither infinite nor NaN. -/
def V3f.FiniteAt (a : V3f) : Prop := ∀ i, F32.finite (a.at i) = true

/-- The coordinates are multiples of `2^(g+1)` units, fewer than `2^21` of them: for `g = 136`, multiples of `2^-12` (a quarter of a millimetre) below 512. -/
def V3f.OnGrid (g : Nat) (a : V3f) : Prop := ∀ i, (2 : Int) ^ (g + 1) ∣ a.coord i ∧ (a.coord i).natAbs < 2 ^ 21 * 2 ^ (g + 1)

namespace BBox
/-- A valid axis-aligned box with finite numbers. -/
structure Proper (b : BBox) : Prop where
  axisAligned : b.type = AABB
  dims : b.dims.FiniteAt
  center : b.center.FiniteAt
  positive : ∀ i, 0 < b.dims.coord i

/-- The point lies in the box (boundary included): on each axis at most half of the dimension away from the centre. -/
def Has (b : BBox) (p : V3f) : Prop := ∀ i, 2 * (p.coord i - b.center.coord i).natAbs ≤ b.dims.coord i

/-- Column of the rotation matrix (stored column by column): the direction of an axis of the box. -/
def column (b : BBox) : Axis → V3f
  | .x => ⟨b.rot.data.getD 0 0, b.rot.data.getD 1 0, b.rot.data.getD 2 0⟩
  | .y => ⟨b.rot.data.getD 3 0, b.rot.data.getD 4 0, b.rot.data.getD 5 0⟩
  | .z => ⟨b.rot.data.getD 6 0, b.rot.data.getD 7 0, b.rot.data.getD 8 0⟩
/-- The exact coordinate of a point along an axis of the box, in units of `2^-298`: the scalar product of the offset from the centre and the column. -/
def along (b : BBox) (p : V3f) (i : Axis) : Int :=
  (b.column i).coord .x * (p.coord .x - b.center.coord .x) + ((b.column i).coord .y * (p.coord .y - b.center.coord .y) +
    (b.column i).coord .z * (p.coord .z - b.center.coord .z))
/-- The exact product of the rotation and a point, in units of `2^-298`. -/
def rotated (b : BBox) (p : V3f) (i : Axis) : Int :=
  (b.column .x).coord i * p.coord .x + ((b.column .y).coord i * p.coord .y + (b.column .z).coord i * p.coord .z)
/-- The entries of the rotation matrix are finite and at most 2 (1, for an exact rotation). -/
def Turned (b : BBox) : Prop := ∀ i, (b.column i).FiniteAt ∧ ∀ j, ((b.column i).coord j).natAbs ≤ 2 * 2 ^ 149
end BBox

end Verif
