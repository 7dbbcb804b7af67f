import Verif.Lemmas.Hull16
import Verif.Lemmas.Hull17
set_option exponentiation.threshold 300
/-! # C63: fitting yaw-aligned boxes -/

namespace Verif
namespace Hull
open F32

/-! ## Samples -/

/-- A whole number of metres. -/
def sampleNum (x : Nat) : F32 := F32.pack false (F32.roundMag (x * 2 ^ 149) 1)
def samplePoint (x y z : Nat) : V3f := ⟨sampleNum x, sampleNum y, sampleNum z⟩
/-- A house with a point inside. -/
def sampleHouse : List V3f := [samplePoint 2 1 1, samplePoint 4 0 1, samplePoint 0 0 0, samplePoint 4 3 2, samplePoint 0 3 1]

theorem tidy_of {ps : List V3f} (h1 : ∀ p ∈ ps, F32.finite p.x = true ∧ F32.finite p.y = true ∧ F32.finite p.z = true)
    (h2 : ∀ p ∈ ps, p.x.val.natAbs ≤ 2 ^ 274 ∧ p.y.val.natAbs ≤ 2 ^ 274 ∧ p.z.val.natAbs ≤ 2 ^ 274) : Tidy ps := by
  refine ⟨?_, ?_⟩
  · intro p hp i
    obtain ⟨a, b, c⟩ := h1 p hp
    cases i <;> assumption
  · intro p hp i
    obtain ⟨a, b, c⟩ := h2 p hp
    cases i <;> assumption
theorem sampleHouse_tidy : Tidy sampleHouse := tidy_of (by decide +kernel) (by decide +kernel)
theorem sampleHouse_raster : Raster 149 64 sampleHouse := ⟨by decide +kernel, by decide +kernel, by decide +kernel, by decide +kernel⟩
theorem sampleHouse_fanned : Fanned sampleHouse := by
  have low : ∀ r, Lowest sampleHouse r → r = 2 := by
    intro r hr
    have : ∀ r < sampleHouse.length, (∀ p ∈ sampleHouse, (pt sampleHouse r).coord .y < p.coord .y ∨ ((pt sampleHouse r).coord .y = p.coord .y ∧ (pt sampleHouse r).coord .x ≤ p.coord .x)) → r = 2 := by
      decide +kernel
    exact this r hr.1 hr.2
  constructor
  · intro r hr
    rw [low r hr]
    decide +kernel
  · intro r hr
    rw [low r hr]
    have : ∀ i < sampleHouse.length, ∀ j < sampleHouse.length, (i ≠ 2 ∧ j ≠ 2 ∧ i ≠ j → (pt sampleHouse 2).turn (pt sampleHouse i) (pt sampleHouse j) ≠ 0) := by
      decide +kernel
    exact fun i hi j hj a b c => this i hi j hj ⟨a, b, c⟩
theorem sampleHouse_small : ∀ p ∈ sampleHouse, ∀ i, (p.coord i).natAbs ≤ 4 * 2 ^ 149 := by
  have : ∀ p ∈ sampleHouse, p.x.val.natAbs ≤ 4 * 2 ^ 149 ∧ p.y.val.natAbs ≤ 4 * 2 ^ 149 ∧ p.z.val.natAbs ≤ 4 * 2 ^ 149 := by decide +kernel
  intro p hp i
  obtain ⟨a, b, c⟩ := this p hp
  cases i <;> assumption

/-! ## The hull -/

/-- C63: for finite points below `2^125` the hull and the box are defined: the comparison given to `std::sort` is a strict weak ordering. -/
theorem C63_defined (sort : (Nat → Nat → Bool) → List Nat → List Nat) (t : Trig) (ps : List V3f) (ht : Tidy ps) (hne : ps ≠ []) :
    (∃ h, hull sort ps = .ok h) ∧ ∃ b, extractRAABB sort t ps = .ok b := by
  obtain ⟨h, e⟩ := hull_defined sort ht hne
  refine ⟨⟨h, e⟩, ?_⟩
  unfold extractRAABB
  rw [e]
  show ∃ b, (match (minBox t ps h).minArea with | none => _ | some _ => _) = Res.ok b
  cases (minBox t ps h).minArea with
  | none => exact ⟨_, rfl⟩
  | some a => exact ⟨_, rfl⟩

example : Tidy sampleHouse ∧ sampleHouse ≠ [] := ⟨sampleHouse_tidy, by decide⟩

/-- C63: whatever the points, a hull that is computed lists different points of the input; if the points are finite, it starts with the lowest, the leftmost of these. -/
theorem C63_hull_of_points {sort : (Nat → Nat → Bool) → List Nat → List Nat} (hs : Sorts sort) (ps : List V3f) (hne : ps ≠ []) (h : List Nat) (e : hull sort ps = .ok h) :
    h ≠ [] ∧ h.Nodup ∧ (∀ i ∈ h, i < ps.length) ∧ ((∀ p ∈ ps, p.FiniteAt) → ∃ r, h.head? = some r ∧ Lowest ps r) := by
  have S := hull_shape hs e
  have lt := findRoot_lt hne
  refine ⟨?_, ?_, ?_, ?_⟩
  · have := S.ne; simpa using this
  · exact List.nodup_reverse.1 S.nodup
  · intro i hi
    have := S.sub i (List.mem_reverse.2 hi)
    rw [List.mem_append] at this
    rcases this with this | this
    · exact ((others_mem).1 this).1
    · rw [List.mem_singleton.1 this]; exact lt
  · intro hf
    refine ⟨findRoot ps, ?_, findRoot_lowest hne hf⟩
    have := S.root
    rwa [List.getLast?_reverse] at this

example : Sorts insertionSort ∧ hull insertionSort sampleHouse = .ok [2, 1, 3, 4] := ⟨insertionSort_sorts, by decide +kernel⟩

/-- C63: the hull is the convex hull, in counter-clockwise order, if the points lie on a raster (of at most 2047 cells each way) and are seen from the lowest in directions
whose cosines differ by `2^-20`. -/
theorem C63_convex_hull {sort : (Nat → Nat → Bool) → List Nat → List Nat} (hs : Sorts sort) (g D : Nat) (ps : List V3f) (ht : Tidy ps) (hne : ps ≠ []) (hr : Raster g D ps)
    (h1 : 75 ≤ g) (h2 : g ≤ 200) (hD : D ≤ 2047) (hsep : Separated ps) : ∃ h, hull sort ps = .ok h ∧ IsHull ps h :=
  hull_separated hs ht hne hr h1 h2 hD hsep

example : Separated sampleHouse := separated_of_fanned sampleHouse_raster sampleHouse_fanned

/-- C63: within 64 cells it is enough that the directions differ. -/
theorem C63_convex_hull_64 {sort : (Nat → Nat → Bool) → List Nat → List Nat} (hs : Sorts sort) (g : Nat) (ps : List V3f) (ht : Tidy ps) (hne : ps ≠ []) (hr : Raster g 64 ps)
    (h1 : 75 ≤ g) (h2 : g ≤ 200) (hf : Fanned ps) : ∃ h, hull sort ps = .ok h ∧ IsHull ps h :=
  hull_separated hs ht hne hr h1 h2 (by decide) (separated_of_fanned hr hf)

example : Tidy sampleHouse ∧ Raster 149 64 sampleHouse ∧ Fanned sampleHouse := ⟨sampleHouse_tidy, sampleHouse_raster, sampleHouse_fanned⟩

/-! ## The box -/

theorem scale_of {ps : List V3f} {M : Nat} (m1 : 2 ^ 49 ≤ M) (m2 : M ≤ 2 ^ 209) (hb : ∀ p ∈ ps, ∀ i, (p.coord i).natAbs ≤ M) :
    Scale ((M : ℝ) / unit) ∧ ∀ p ∈ ps, ∀ i, |(p.at i).re| ≤ (M : ℝ) / unit := by
  have hu := unitR_pos
  refine ⟨⟨?_, ?_⟩, ?_⟩
  · rw [div_le_div_iff₀ (by norm_num) hu, one_mul, unit_real]
    have : (2 : ℝ) ^ 49 ≤ M := by exact_mod_cast m1
    have h := mul_le_mul_of_nonneg_right this (show (0 : ℝ) ≤ 2 ^ 100 by norm_num)
    rw [← pow_add] at h
    exact h
  · rw [div_le_iff₀ hu, unit_real]
    have : (M : ℝ) ≤ 2 ^ 209 := by exact_mod_cast m2
    rw [← pow_add]; exact this
  · intro p hp i
    rw [le_div_iff₀ hu, ← natAbs_re]
    exact_mod_cast hb p hp i

/-- C63: the box fitted to at least two points in different directions holds all points: half its dimensions are at least the exact distance of the point from the
centre along each axis, up to a thousandth part of the largest coordinate. `M` bounds the coordinates (in units of `2^-149`); the box has no NaN and no infinity. -/
theorem C63_box_holds {sort : (Nat → Nat → Bool) → List Nat → List Nat} {t : Trig} (hs : Sorts sort) (ta : t.Accurate) (g D M : Nat) (ps : List V3f) (ht : Tidy ps)
    (hr : Raster g D ps) (h1 : 75 ≤ g) (h2 : g ≤ 200) (hD : D ≤ 2047) (hsep : Separated ps) (hlen : 2 ≤ ps.length) (m1 : 2 ^ 49 ≤ M) (m2 : M ≤ 2 ^ 209)
    (hb : ∀ p ∈ ps, ∀ i, (p.coord i).natAbs ≤ M) :
    ∃ b, extractRAABB sort t ps = .ok b ∧ b.type = BBox.RAABB ∧ b.dims.FiniteAt ∧ b.center.FiniteAt ∧
      ∀ p ∈ ps, ∀ i, 2 ^ 10 * (2 * (b.along p i).natAbs) ≤ 2 ^ 149 * (2 ^ 10 * b.dims.coord i + M) := by
  obtain ⟨hM, hb'⟩ := scale_of m1 m2 hb
  obtain ⟨b, h, i, cx, cy, e, _, _, _, _, _, F⟩ := fitted hs ta ht hr h1 h2 hD hsep hlen hM hb'
  refine ⟨b, e, F.type, F.finite, F.center, ?_⟩
  intro p hp a
  have h := F.inside p hp a
  have hu := unitR_pos
  have hv : b.dims.coord a = (b.dims.at a).val := rfl
  have e1 : (b.dims.at a).re = (b.dims.coord a : ℝ) / unit := by rw [hv, re_eq]
  rw [e1, abs_div, abs_of_pos (mul_pos hu hu)] at h
  have h2 : 2 ^ 10 * (2 * |((b.along p a : Int) : ℝ)|) ≤ unit * (2 ^ 10 * (b.dims.coord a : ℝ) + M) := by
    have := mul_le_mul_of_nonneg_left h (show (0 : ℝ) ≤ 2 ^ 10 * (unit * unit) from mul_nonneg (by norm_num) (le_of_lt (mul_pos hu hu)))
    have l : 2 ^ 10 * (unit * unit : ℝ) * (2 * (|((b.along p a : Int) : ℝ)| / (unit * unit))) = 2 ^ 10 * (2 * |((b.along p a : Int) : ℝ)|) := by
      field_simp
    have r : 2 ^ 10 * (unit * unit : ℝ) * ((b.dims.coord a : ℝ) / unit + M / unit / 2 ^ 10) = unit * (2 ^ 10 * (b.dims.coord a : ℝ) + M) := by
      field_simp
    rw [l, r] at this
    exact this
  rw [unit_real] at h2
  have h3 : ((2 ^ 10 * (2 * ((b.along p a).natAbs : Int)) : Int) : ℝ) ≤ ((2 ^ 149 * (2 ^ 10 * b.dims.coord a + M) : Int) : ℝ) := by
    simp only [Int.cast_mul, Int.cast_add, Int.cast_pow, Int.cast_ofNat, Int.cast_natCast, Nat.cast_natAbs, Int.cast_abs]
    exact h2
  exact_mod_cast h3

/-- C63: the same for points within 64 cells of a raster. -/
theorem C63_box_holds_64 {sort : (Nat → Nat → Bool) → List Nat → List Nat} {t : Trig} (hs : Sorts sort) (ta : t.Accurate) (g M : Nat) (ps : List V3f) (ht : Tidy ps)
    (hr : Raster g 64 ps) (h1 : 75 ≤ g) (h2 : g ≤ 200) (hf : Fanned ps) (hlen : 2 ≤ ps.length) (m1 : 2 ^ 49 ≤ M) (m2 : M ≤ 2 ^ 209)
    (hb : ∀ p ∈ ps, ∀ i, (p.coord i).natAbs ≤ M) :
    ∃ b, extractRAABB sort t ps = .ok b ∧ b.type = BBox.RAABB ∧ b.dims.FiniteAt ∧ b.center.FiniteAt ∧
      ∀ p ∈ ps, ∀ i, 2 ^ 10 * (2 * (b.along p i).natAbs) ≤ 2 ^ 149 * (2 ^ 10 * b.dims.coord i + M) :=
  C63_box_holds hs ta g 64 M ps ht hr h1 h2 (by decide) (separated_of_fanned hr hf) hlen m1 m2 hb

example : (∃ t : Trig, t.Accurate) ∧ 2 ≤ sampleHouse.length ∧ 2 ^ 49 ≤ 4 * 2 ^ 149 ∧ 4 * 2 ^ 149 ≤ 2 ^ 209 ∧ ∀ p ∈ sampleHouse, ∀ i, (p.coord i).natAbs ≤ 4 * 2 ^ 149 :=
  ⟨accurate_exists, by decide, by decide +kernel, by decide +kernel, sampleHouse_small⟩

/-- C63: the box lies along an edge of the convex hull (the first column of its rotation is the direction of the edge), its dimensions are the extents of the points along
and across that edge (up to a thousandth part of the largest coordinate) and in height, and along no other edge is the area smaller, up to `M²/2^12`. -/
theorem C63_smallest {sort : (Nat → Nat → Bool) → List Nat → List Nat} {t : Trig} (hs : Sorts sort) (ta : t.Accurate) (g D : Nat) (ps : List V3f) (ht : Tidy ps) (hr : Raster g D ps)
    (h1 : 75 ≤ g) (h2 : g ≤ 200) (hD : D ≤ 2047) (hsep : Separated ps) (hlen : 2 ≤ ps.length) (M : ℝ) (lo : 1 / 2 ^ 40 ≤ M) (hi : M ≤ 2 ^ 40) (hb : ∀ p ∈ ps, ∀ a, |(p.at a).re| ≤ M) :
    ∃ b h, extractRAABB sort t ps = .ok b ∧ hull sort ps = .ok h ∧ IsHull ps h ∧ ∃ i < h.length, ∃ cx cy W H : ℝ, EdgeAlong ps h i cx cy ∧ Extent ps cx cy H ∧ Extent ps (-cy) cx W ∧
      |b.dims.x.re - H| ≤ M / 2 ^ 10 ∧ |b.dims.y.re - W| ≤ M / 2 ^ 10 ∧ |(b.column .x).x.re - cx| ≤ 1 / 2 ^ 19 ∧ |(b.column .x).y.re - cy| ≤ 1 / 2 ^ 19 ∧
      (∃ p ∈ ps, ∃ q ∈ ps, (∀ r ∈ ps, p.z.re ≤ r.z.re ∧ r.z.re ≤ q.z.re) ∧ |b.dims.z.re - (q.z.re - p.z.re)| ≤ M / 2 ^ 15) ∧
      ∀ k < h.length, ∀ cx' cy' W' H' : ℝ, EdgeAlong ps h k cx' cy' → Extent ps cx' cy' H' → Extent ps (-cy') cx' W' → W * H ≤ W' * H' + M * M / 2 ^ 12 :=
  fitted_least hs ta ht hr h1 h2 hD hsep hlen lo hi hb

example : Separated sampleHouse ∧ ∀ p ∈ sampleHouse, ∀ a, |(p.at a).re| ≤ (4 * 2 ^ 149 : Nat) / unit :=
  ⟨separated_of_fanned sampleHouse_raster sampleHouse_fanned, (scale_of (by decide +kernel) (by decide +kernel) sampleHouse_small).2⟩

/-! ## What goes wrong -/

/-- C63 (finding): with coordinates near the largest float, differences overflow, and the comparison given to `std::sort` is no strict weak ordering: undefined behaviour. -/
theorem C63_huge_undefined : ∃ ps : List V3f, (∀ p ∈ ps, p.FiniteAt) ∧ ∀ sort t, extractRAABB sort t ps = .ub := by
  refine ⟨[⟨0xFF7FFFFF, 0, 0⟩, ⟨0xFF7FFFFF, 0x3F800000, 0⟩, ⟨0x7F7FFFFF, 0x3F800000, 0⟩, ⟨0xFF7FFFFF, 0x40000000, 0⟩], ?_, ?_⟩
  · have : ∀ p ∈ [(⟨0xFF7FFFFF, 0, 0⟩ : V3f), ⟨0xFF7FFFFF, 0x3F800000, 0⟩, ⟨0x7F7FFFFF, 0x3F800000, 0⟩, ⟨0xFF7FFFFF, 0x40000000, 0⟩], F32.finite p.x = true ∧ F32.finite p.y = true ∧ F32.finite p.z = true := by
      decide +kernel
    intro p hp i
    obtain ⟨a, b, c⟩ := this p hp
    cases i <;> assumption
  · intro sort t
    have e : hull sort [⟨0xFF7FFFFF, 0, 0⟩, ⟨0xFF7FFFFF, 0x3F800000, 0⟩, ⟨0x7F7FFFFF, 0x3F800000, 0⟩, ⟨0xFF7FFFFF, 0x40000000, 0⟩] = .ub := by
      unfold hull
      dsimp only
      rw [if_pos (by decide +kernel)]
    unfold extractRAABB
    rw [e]; rfl

/-- C63 (finding): the box of a single point has no centre: NaN. -/
theorem C63_single_point {sort : (Nat → Nat → Bool) → List Nat → List Nat} (hs : Sorts sort) (t : Trig) (p : V3f) (hf : p.FiniteAt) :
    ∃ b, extractRAABB sort t [p] = .ok b ∧ b.center.x.isNan = true ∧ b.center.y.isNan = true :=
  center_single hs t p (hf .x) (hf .y)

example : (samplePoint 2 1 1).FiniteAt := sampleHouse_tidy.finite _ (by decide)

/-- C63 (finding): a second point at the place of the lowest makes the box useless, whatever the other points are here. -/
theorem C63_lowest_twice {sort : (Nat → Nat → Bool) → List Nat → List Nat} (hs : Sorts sort) (t : Trig) :
    ∃ b, extractRAABB sort t [samplePoint 0 0 0, samplePoint 0 0 0, samplePoint 1 0 0, samplePoint 1 1 0] = .ok b ∧ b.center.x.isNan = true ∧ b.center.y.isNan = true := by
  have e : ∃ b, extractRAABB insertionSort ⟨fun _ _ => 0, fun _ => 0, fun _ => 0⟩ [samplePoint 0 0 0, samplePoint 0 0 0, samplePoint 1 0 0, samplePoint 1 1 0] = .ok b := by
    exact (C63_defined _ _ _ (tidy_of (by decide +kernel) (by decide +kernel)) (by decide)).2
  obtain ⟨b, e⟩ := e
  have n : ∀ b, extractRAABB insertionSort ⟨fun _ _ => 0, fun _ => 0, fun _ => 0⟩ [samplePoint 0 0 0, samplePoint 0 0 0, samplePoint 1 0 0, samplePoint 1 1 0] = .ok b →
      b.center.x.isNan = true ∧ b.center.y.isNan = true := by
    have : (match extractRAABB insertionSort ⟨fun _ _ => 0, fun _ => 0, fun _ => 0⟩ [samplePoint 0 0 0, samplePoint 0 0 0, samplePoint 1 0 0, samplePoint 1 1 0] with
      | .ok b => b.center.x.isNan && b.center.y.isNan | _ => false) = true := by decide +kernel
    intro b e
    rw [e] at this
    simpa using this
  obtain ⟨b', e', c⟩ := center_yaw _ t e
  refine ⟨b', ?_, ?_⟩
  · rw [← e']
    unfold extractRAABB
    rw [hull_unique hs (by decide +kernel) (by decide +kernel)]
  · rw [c]; exact n b e

/-- C63 (finding): of points in one direction from the lowest, a far one can be sorted before a near one and be lost: the hull of these four has three corners, and the
third point is to the right of the way from the first to the second. -/
theorem C63_same_direction {sort : (Nat → Nat → Bool) → List Nat → List Nat} (hs : Sorts sort) :
    hull sort [samplePoint 24 0 0, samplePoint 32 8 1, samplePoint 48 24 0, samplePoint 0 24 1] = .ok [0, 1, 3] ∧
      ¬ IsHull [samplePoint 24 0 0, samplePoint 32 8 1, samplePoint 48 24 0, samplePoint 0 24 1] [0, 1, 3] := by
  constructor
  · rw [hull_unique hs (by decide +kernel) (by decide +kernel)]; decide +kernel
  · intro H
    have h := H.left 1 (by decide) (samplePoint 48 24 0) (by decide)
    exact absurd h (by decide +kernel)

/-- C63 (finding): three points on a line; the hull ends at the second. -/
theorem C63_line {sort : (Nat → Nat → Bool) → List Nat → List Nat} (hs : Sorts sort) :
    hull sort [samplePoint 0 0 0, samplePoint 8 8 1, samplePoint 24 24 0] = .ok [0, 1] ∧ ¬ IsHull [samplePoint 0 0 0, samplePoint 8 8 1, samplePoint 24 24 0] [0, 1] := by
  constructor
  · rw [hull_unique hs (by decide +kernel) (by decide +kernel)]; decide +kernel
  · intro H
    have h := H.contains 1 1 (16 * 2 ^ 149) (by decide +kernel) (samplePoint 24 24 0) (by decide)
    exact absurd h (by decide +kernel)

/-- C63 (finding): two points in slightly different directions of the same cosine (as a float) are sorted by distance, and one is lost: the hull of a triangle has two
corners. -/
theorem C63_nearly_flat {sort : (Nat → Nat → Bool) → List Nat → List Nat} (hs : Sorts sort) :
    hull sort [samplePoint 0 0 0, samplePoint 5000 1 0, samplePoint 10000 1 0] = .ok [0, 2] ∧
      ¬ IsHull [samplePoint 0 0 0, samplePoint 5000 1 0, samplePoint 10000 1 0] [0, 2] := by
  constructor
  · rw [hull_unique hs (by decide +kernel) (by decide +kernel)]; decide +kernel
  · intro H
    have h := H.left 1 (by decide) (samplePoint 5000 1 0) (by decide)
    exact absurd h (by decide +kernel)

end Hull
end Verif
