import Verif.Props.BoxSample
import Verif.Lemmas.Box7
/-! # C55: rotated boxes, frames and corners -/

namespace Verif
open F32
namespace BBox

/-- One coordinate of `pointToBoxFrame`, rotated. -/
theorem toBox_at {b : BBox} (hr : b.hasRotation = true) (p : V3f) (i : Axis) : (b.pointToBoxFrame p).at i = rowTimes (b.column i) (p.sub b.center) := by
  unfold pointToBoxFrame
  rw [hr]
  cases i <;> rfl

theorem row_bound {b : BBox} (h : b.Turned) (i : Axis) :
    V3f.FiniteAt ⟨(b.column .x).at i, (b.column .y).at i, (b.column .z).at i⟩ ∧ ∀ j, (V3f.coord ⟨(b.column .x).at i, (b.column .y).at i, (b.column .z).at i⟩ j).natAbs ≤ 2 * 2 ^ 149 := by
  constructor
  · intro j
    cases j
    · exact (h .x).1 i
    · exact (h .y).1 i
    · exact (h .z).1 i
  · intro j
    cases j
    · exact (h .x).2 i
    · exact (h .y).2 i
    · exact (h .z).2 i

theorem toWorld_at {b : BBox} (hr : b.hasRotation = true) (p : V3f) (i : Axis) :
    (b.pointToWorldFrame p).at i = (rowTimes ⟨(b.column .x).at i, (b.column .y).at i, (b.column .z).at i⟩ p).add (b.center.at i) := by
  unfold pointToWorldFrame
  rw [hr]
  cases i <;> rfl

/-- C55: `pointToBoxFrame` of a rotated box is the scalar product with the axes of the box up to `50 M/2^24` and two units, where `M` bounds the offset from the centre. -/
theorem C55_box_frame (b : BBox) (p : V3f) (hr : b.hasRotation = true) (ht : b.Turned) (hc : b.center.FiniteAt) (hp : p.FiniteAt) (M : Nat) (hM : M ≤ 2 ^ 271)
    (h : ∀ i, (p.coord i - b.center.coord i).natAbs ≤ M) (i : Axis) :
    F32.finite ((b.pointToBoxFrame p).at i) = true ∧ 2 ^ 24 * (2 ^ 149 * (b.pointToBoxFrame p).coord i - b.along p i).natAbs ≤ 2 ^ 149 * (50 * M + 2 ^ 25) := by
  have := rowTimes_sub_err (ht i).1 hp hc (ht i).2 h hM
  unfold V3f.coord at this ⊢
  rw [toBox_at hr]
  exact this

/-- C55: without rotation the offset from the centre, up to `M/2^24`; exactly on a grid (C55_exact_on_a_grid). -/
theorem C55_box_frame_unrotated (b : BBox) (p : V3f) (hr : b.hasRotation = false) (hc : b.center.FiniteAt) (hp : p.FiniteAt) (i : Axis)
    (h : (p.coord i - b.center.coord i).natAbs ≤ 2 ^ 276) :
    F32.finite ((b.pointToBoxFrame p).at i) = true ∧
    2 ^ 24 * ((b.pointToBoxFrame p).coord i - (p.coord i - b.center.coord i)).natAbs ≤ (p.coord i - b.center.coord i).natAbs := by
  have e : b.pointToBoxFrame p = p.sub b.center := by unfold pointToBoxFrame; rw [hr]; rfl
  obtain ⟨s1, s2⟩ := sub_val (hp i) (hc i)
  have s3 : (p.sub b.center).coord i = fl (p.coord i - b.center.coord i) := by unfold V3f.coord; rw [V3f.at_sub]; exact s2
  have hs := fl_small h
  rw [e, s3, V3f.at_sub]
  exact ⟨(finite_iff_val s1).2 (by rw [s2]; exact hs), fl_err hs⟩

/-- C55: `pointToWorldFrame` of a rotated box is the rotated point plus the centre up to `40 M/2^24` and three units. -/
theorem C55_world_frame (b : BBox) (p : V3f) (hr : b.hasRotation = true) (ht : b.Turned) (hc : b.center.FiniteAt) (hp : p.FiniteAt) (M : Nat) (hM : M ≤ 2 ^ 271)
    (h : ∀ i, (p.coord i).natAbs ≤ M) (h' : ∀ i, (b.center.coord i).natAbs ≤ M) (i : Axis) :
    F32.finite ((b.pointToWorldFrame p).at i) = true ∧
    2 ^ 24 * (2 ^ 149 * (b.pointToWorldFrame p).coord i - (b.rotated p i + 2 ^ 149 * b.center.coord i)).natAbs ≤ 2 ^ 149 * (40 * M + 3 * 2 ^ 24) := by
  obtain ⟨f, e, l⟩ := rowTimes_err (M := M) (row_bound ht i).1 hp (row_bound ht i).2 h (Nat.le_trans hM (Nat.pow_le_pow_right (by decide) (by decide)))
  have hex : rowExact ⟨(b.column .x).at i, (b.column .y).at i, (b.column .z).at i⟩ p.coord = b.rotated p i := rfl
  rw [hex] at e
  unfold V3f.coord
  rw [toWorld_at hr]
  have hc' := h' i
  generalize rowTimes ⟨(b.column .x).at i, (b.column .y).at i, (b.column .z).at i⟩ p = y at *
  obtain ⟨s1, s2⟩ := add_val f (hc i)
  have ec : (b.center.at i).val = b.center.coord i := rfl
  rw [ec] at s2
  have hs : (y.val + b.center.coord i).natAbs ≤ 12 * M + 5 := by omega
  have hsm : (fl (y.val + b.center.coord i)).natAbs < top := by
    apply fl_small
    have k : (2 : Nat) ^ 276 = 2 ^ 5 * 2 ^ 271 := by decide +kernel
    have : (1 : Nat) ≤ 2 ^ 271 := Nat.two_pow_pos _
    omega
  have er := fl_err hsm
  refine ⟨(finite_iff_val s1).2 (by rw [s2]; exact hsm), ?_⟩
  rw [s2, ec]
  generalize fl (y.val + b.center.coord i) = t at *
  clear hsm hM h h'
  have n1 : (2 ^ 149 * t - (b.rotated p i + 2 ^ 149 * b.center.coord i)).natAbs ≤ 2 ^ 149 * (t - (y.val + b.center.coord i)).natAbs + (2 ^ 149 * y.val - b.rotated p i).natAbs := by
    have k : (2 ^ 149 * (t - (y.val + b.center.coord i))).natAbs = 2 ^ 149 * (t - (y.val + b.center.coord i)).natAbs := by rw [Int.natAbs_mul]; rfl
    rw [← k]
    have : 2 ^ 149 * t - (b.rotated p i + 2 ^ 149 * b.center.coord i) = 2 ^ 149 * (t - (y.val + b.center.coord i)) + (2 ^ 149 * y.val - b.rotated p i) := by omega
    rw [this]
    exact Int.natAbs_add_le _ _
  generalize (2 ^ 149 * t - (b.rotated p i + 2 ^ 149 * b.center.coord i)).natAbs = A at *
  generalize (t - (y.val + b.center.coord i)).natAbs = B at *
  generalize (2 ^ 149 * y.val - b.rotated p i).natAbs = C at *
  omega

/-- C55: containment in a rotated box. An accepted point lies in the box up to `50 M/2^24` and a few units along each axis of the box, where `M`
bounds its offset from the centre; a point that lies deeper inside than that is accepted. -/
theorem C55_rotated (b : BBox) (p : V3f) (hv : b.isValid = true) (hr : b.hasRotation = true) (ht : b.Turned) (hd : b.dims.FiniteAt) (hc : b.center.FiniteAt)
    (hp : p.FiniteAt) (M : Nat) (hM : M ≤ 2 ^ 271) (h : ∀ i, (p.coord i - b.center.coord i).natAbs ≤ M) :
    (b.contains p = true → ∀ i, 2 ^ 24 * (2 * (b.along p i).natAbs) ≤ 2 ^ 149 * (2 ^ 24 * (b.dims.coord i + 5) + 100 * M)) ∧
    ((∀ i, 2 ^ 24 * (2 * (b.along p i).natAbs) + 2 ^ 149 * (2 ^ 24 * 5 + 100 * M) ≤ 2 ^ 149 * (2 ^ 24 * b.dims.coord i)) → b.contains p = true) := by
  have F := C55_box_frame b p hr ht hc hp M hM h
  have e : b.contains p = b.isInside (b.pointToBoxFrame p) := by unfold contains; rw [hv]; rfl
  rw [e, isInside_iff hd (fun i => finite_notNan (F i).1)]
  have tri : ∀ y S : Int, (2 ^ 149 * y).natAbs ≤ (2 ^ 149 * y - S).natAbs + S.natAbs ∧ S.natAbs ≤ (2 ^ 149 * y - S).natAbs + (2 ^ 149 * y).natAbs := by
    intro y S; omega
  have sc : ∀ y : Int, (2 ^ 149 * y).natAbs = 2 ^ 149 * y.natAbs := by intro y; rw [Int.natAbs_mul]; rfl
  constructor
  · intro hi i
    have h1 := hi i
    have h2 := (F i).2
    have h3 := half_bound (hd i)
    have e3 : (b.dims.at i).val = b.dims.coord i := rfl
    rw [e3] at h3
    have t := (tri ((b.pointToBoxFrame p).coord i) (b.along p i)).2
    rw [sc] at t
    generalize (b.dims.at i).half.val = hh at *
    generalize ((b.pointToBoxFrame p).coord i).natAbs = Y at *
    generalize (2 ^ 149 * (b.pointToBoxFrame p).coord i - b.along p i).natAbs = D at *
    clear F tri sc hi h hM
    omega
  · intro hi i
    have h1 := hi i
    have h2 := (F i).2
    have h3 := half_bound (hd i)
    have e3 : (b.dims.at i).val = b.dims.coord i := rfl
    rw [e3] at h3
    have t := (tri ((b.pointToBoxFrame p).coord i) (b.along p i)).1
    rw [sc] at t
    generalize (b.dims.at i).half.val = hh at *
    generalize ((b.pointToBoxFrame p).coord i).natAbs = Y at *
    generalize (2 ^ 149 * (b.pointToBoxFrame p).coord i - b.along p i).natAbs = D at *
    clear F tri sc hi h hM
    omega

/-- C55: without rotation the type of a valid box does not matter. -/
theorem C55_unrotated (b : BBox) (p : V3f) (hv : b.isValid = true) (hr : b.hasRotation = false) : b.contains p = (aabb b.dims b.center).contains p := by
  have h1 : (aabb b.dims b.center).isValid = true := by
    unfold isValid at *
    have e1 : (aabb b.dims b.center).dims = b.dims := rfl
    have e2 : ((aabb b.dims b.center).type == INVALID) = false := rfl
    rw [e1, e2, if_neg (by decide)]
    by_cases h : (b.type == INVALID) = true
    · rw [if_pos h] at hv; cases hv
    · rw [if_neg h] at hv; exact hv
  have h2 : (aabb b.dims b.center).hasRotation = false := rfl
  have h3 : (aabb b.dims b.center).center = b.center := rfl
  have h4 : ∀ q, (aabb b.dims b.center).isInside q = b.isInside q := fun q => by
    unfold isInside
    have e1 : (aabb b.dims b.center).dims = b.dims := rfl
    rw [e1]
  unfold contains
  rw [hv, h1, h4]
  unfold pointToBoxFrame
  rw [hr, h2, h3]
  simp only [Bool.false_eq_true, if_false]

/-- C55: the corners of a valid axis-aligned box on a grid are exactly its eight corners, and the box contains them. -/
theorem C55_corners (b : BBox) (g : Nat) (hg : 1 ≤ g ∧ g ≤ 252) (hb : b.Proper) (h1 : b.center.OnGrid g) (h2 : b.dims.OnGrid g) :
    b.corners.length = 8 ∧
    (∀ s : Axis → Bool, ∃ q ∈ b.corners, ∀ i, 2 * q.coord i = if s i then 2 * b.center.coord i + b.dims.coord i else 2 * b.center.coord i - b.dims.coord i) ∧
    ∀ q ∈ b.corners, b.contains q = true := by
  have e : b.corners = ([⟨b.dims.x.neg.half, b.dims.y.neg.half, b.dims.z.neg.half⟩, ⟨b.dims.x.half, b.dims.y.neg.half, b.dims.z.neg.half⟩,
      ⟨b.dims.x.half, b.dims.y.half, b.dims.z.neg.half⟩, ⟨b.dims.x.neg.half, b.dims.y.half, b.dims.z.neg.half⟩,
      ⟨b.dims.x.neg.half, b.dims.y.neg.half, b.dims.z.half⟩, ⟨b.dims.x.half, b.dims.y.neg.half, b.dims.z.half⟩,
      ⟨b.dims.x.half, b.dims.y.half, b.dims.z.half⟩, ⟨b.dims.x.neg.half, b.dims.y.half, b.dims.z.half⟩] : List V3f).map (·.add b.center) := by
    unfold corners; rw [hb.noRotation]; rfl
  have lo : ∀ i, F32.finite (((b.dims.at i).neg.half).add (b.center.at i)) = true ∧
      2 * (((b.dims.at i).neg.half).add (b.center.at i)).val = 2 * b.center.coord i - b.dims.coord i := by
    intro i
    obtain ⟨c, h, C⟩ := hb.cells hg h1 h2 i
    have hv : (b.dims.at i).neg.half.val = -(2 ^ g * h) := by
      have := half_even (neg_finite (hb.dims i)) (by rw [neg_val]; have := pow_even hg.1 (2 * h); have hd : (b.dims.at i).val = 2 ^ g * (2 * h) := C.dims; rw [hd]; omega)
      rw [neg_val] at this
      have hd : (b.dims.at i).val = 2 ^ g * (2 * h) := C.dims
      rw [hd, Int.mul_left_comm] at this
      omega
    obtain ⟨s1, s2⟩ := add_val (half_finite (neg_finite (hb.dims i))) (hb.center i)
    have hc : (b.center.at i).val = 2 ^ g * (2 * c) := C.center
    have q1 := C.bc
    have q2 := C.bh
    rw [hv, hc, show -(2 ^ g * h) + 2 ^ g * (2 * c) = 2 ^ g * (2 * c - h) by rw [Int.mul_sub]; omega, fl_cells (by omega) _ (by omega)] at s2
    refine ⟨(finite_iff_val s1).2 (by rw [s2]; exact Nat.lt_of_lt_of_le (cells_lt hg.2 _ (by omega)) (Nat.pow_le_pow_right (by decide) (by decide))), ?_⟩
    rw [s2, C.center, C.dims, Int.mul_left_comm 2, Int.mul_left_comm 2 (2 ^ g), ← Int.mul_sub]
    congr 1; omega
  have hi : ∀ i, F32.finite (((b.dims.at i).half).add (b.center.at i)) = true ∧
      2 * (((b.dims.at i).half).add (b.center.at i)).val = 2 * b.center.coord i + b.dims.coord i := by
    intro i
    obtain ⟨c, h, C⟩ := hb.cells hg h1 h2 i
    obtain ⟨s1, s2⟩ := add_val (half_finite (hb.dims i)) (hb.center i)
    have hc : (b.center.at i).val = 2 ^ g * (2 * c) := C.center
    have q1 := C.bc
    have q2 := C.bh
    rw [C.half, hc, ← Int.mul_add, fl_cells (by omega) _ (by omega)] at s2
    refine ⟨(finite_iff_val s1).2 (by rw [s2]; exact Nat.lt_of_lt_of_le (cells_lt hg.2 _ (by omega)) (Nat.pow_le_pow_right (by decide) (by decide))), ?_⟩
    rw [s2, C.center, C.dims, Int.mul_left_comm 2, Int.mul_left_comm 2 (2 ^ g), ← Int.mul_add]
    congr 1; omega
  refine ⟨by rw [e]; rfl, ?_, ?_⟩
  · intro s
    refine ⟨V3f.add ⟨if s .x then b.dims.x.half else b.dims.x.neg.half, if s .y then b.dims.y.half else b.dims.y.neg.half, if s .z then b.dims.z.half else b.dims.z.neg.half⟩ b.center, ?_, ?_⟩
    · rw [e]
      apply List.mem_map_of_mem
      cases s .x <;> cases s .y <;> cases s .z <;> simp
    · intro i
      unfold V3f.coord
      rw [V3f.at_add]
      have l := (lo i).2
      have u := (hi i).2
      cases i <;> simp only [V3f.at, V3f.coord] at l u ⊢ <;> split <;> assumption
  · intro q hq
    rw [e] at hq
    have key : ∀ i, F32.finite (q.at i) = true ∧ (2 * q.coord i = 2 * b.center.coord i - b.dims.coord i ∨ 2 * q.coord i = 2 * b.center.coord i + b.dims.coord i) := by
      intro i
      obtain ⟨v, hv, rfl⟩ := List.mem_map.1 hq
      have hv' : v.at i = (b.dims.at i).neg.half ∨ v.at i = (b.dims.at i).half := by
        simp only [List.mem_cons, List.not_mem_nil, or_false] at hv
        rcases hv with rfl | rfl | rfl | rfl | rfl | rfl | rfl | rfl <;> cases i <;> simp only [V3f.at, true_or, or_true]
      unfold V3f.coord
      rw [V3f.at_add]
      rcases hv' with hv' | hv'
      · rw [hv']; exact ⟨(lo i).1, .inl (lo i).2⟩
      · rw [hv']; exact ⟨(hi i).1, .inr (hi i).2⟩
    apply C55_no_point_missed b q hb (fun i => (key i).1)
    intro i
    have k := (key i).2
    have := hb.positive i
    omega

/-- C55: a point given in doubles that are floats is treated like the floats. -/
theorem C55_double (b : BBox) (p : V3f) (hp : p.FiniteAt) : b.containsD ⟨p.x.toDouble, p.y.toDouble, p.z.toDouble⟩ = b.contains p := by
  unfold containsD
  rw [(ieee_exact p.x (hp .x)).2, (ieee_exact p.y (hp .y)).2, (ieee_exact p.z (hp .z)).2]

/-- C57: merging an oriented box into a valid axis-aligned box fits an axis-aligned box to the corners of both, up to the precision of the coordinates. -/
theorem C57_merge_mixed (raabb : List V3f → BBox) (a b : BBox) (ha : a.isValid = true) (hb : b.isValid = true) (h1 : a.type = AABB) (h2 : b.type ≠ AABB)
    (hf : ∀ q ∈ a.corners ++ b.corners, q.FiniteAt) (i : Axis) (M : Nat) (hM : M < 2 ^ 276) (hc : ∀ q ∈ a.corners ++ b.corners, (q.coord i).natAbs ≤ M) :
    (a.merge raabb b).type = AABB ∧ ∀ q ∈ a.corners ++ b.corners,
      2 ^ 24 * (2 * (q.coord i - (a.merge raabb b).center.coord i).natAbs) ≤ 2 ^ 24 * ((a.merge raabb b).dims.coord i + 1) + 2 * M := by
  have e : a.merge raabb b = extract raabb (a.corners ++ b.corners) AABB := by
    unfold merge mergeGeneral
    have hn : (AABB == AABB && b.type == AABB) = false := by
      rw [Bool.and_eq_false_iff]; right; exact beq_false_of_ne h2
    rw [ha, hb, h1, hn]
    rfl
  rw [e]
  cases hl : a.corners ++ b.corners with
  | nil =>
    exfalso
    have : (a.corners ++ b.corners).length = 0 := by rw [hl]; rfl
    rw [List.length_append] at this
    have l : a.corners.length = 8 := by
      unfold corners
      cases a.hasRotation <;> rfl
    omega
  | cons p ps =>
    rw [hl] at hf hc
    exact ⟨rfl, fun q hq => C57_fit_close raabb p ps hf i M hM hc q hq⟩

/-! ## Cases that meet the hypotheses -/

/-- `sampleB` turned by 90 degrees about the z axis -/
def sampleT : BBox := { sampleB with type := RAABB, rot := ⟨3, 3, [0, 0x3f800000, 0, 0xbf800000, 0, 0, 0, 0, 0x3f800000]⟩ }
/-- turned by an angle whose cosine and sine are 0.6 and 0.8 -/
def sampleU : BBox := { sampleB with type := OBB, rot := ⟨3, 3, [0x3f19999a, 0x3f4ccccd, 0, 0xbf4ccccd, 0x3f19999a, 0, 0, 0, 0x3f800000]⟩ }
instance (b : BBox) : Decidable b.Turned :=
  inferInstanceAs (Decidable (∀ i, (b.column i).FiniteAt ∧ ∀ j, ((b.column i).coord j).natAbs ≤ 2 * 2 ^ 149))
example : sampleU.isValid = true ∧ sampleU.hasRotation = true ∧ sampleU.Turned ∧ sampleU.dims.FiniteAt ∧ sampleU.center.FiniteAt ∧
    (∀ i, (sampleP.coord i - sampleU.center.coord i).natAbs ≤ 2 ^ 151) ∧ (∀ i, (sampleP.coord i).natAbs ≤ 2 ^ 151) ∧ (∀ i, (sampleU.center.coord i).natAbs ≤ 2 ^ 151) := by decide +kernel
-- (1.5, 3, 3) is inside of the tilted box by more than the error bound; (3, 4.5, 2.5) is in the turned but not in the unturned box
example : ∀ i, 2 ^ 24 * (2 * (sampleU.along ⟨0x40000000, 0x40400000, 0x40400000⟩ i).natAbs) + 2 ^ 149 * (2 ^ 24 * 5 + 100 * (2 ^ 149 : Nat)) ≤
    2 ^ 149 * (2 ^ 24 * sampleU.dims.coord i) := by decide +kernel
example : sampleT.hasRotation = true ∧ sampleT.contains ⟨0x40400000, 0x40900000, 0x40200000⟩ = true ∧ sampleB.contains ⟨0x40400000, 0x40900000, 0x40200000⟩ = false := by
  decide +kernel
-- C57_merge_mixed
example : sampleA.isValid = true ∧ sampleU.isValid = true ∧ sampleU.type ≠ AABB ∧ (∀ q ∈ sampleA.corners ++ sampleU.corners, q.FiniteAt ∧ ∀ i, (q.coord i).natAbs ≤ 2 ^ 152) := by
  decide +kernel
example : ({ sampleA with type := RAABB } : BBox).hasRotation = false ∧ ({ sampleA with type := RAABB } : BBox).isValid = true := by decide +kernel

end BBox
end Verif
