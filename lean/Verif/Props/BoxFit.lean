import Verif.Props.Box
import Verif.Lemmas.Box6
/-! # C57: fitting and merging boxes -/

namespace Verif
open F32
namespace BBox

/-! ## Fitting -/

/-- C57: the box fitted to finite points is axis-aligned and finite, its dimensions are the extent of the points up to one part in `2^24`, and
it is valid exactly if on every axis two points differ. -/
theorem C57_fit (raabb : List V3f → BBox) (p : V3f) (ps : List V3f) (hf : ∀ q ∈ p :: ps, q.FiniteAt) (hb : ∀ q ∈ p :: ps, ∀ i, (q.coord i).natAbs < 2 ^ 276) :
    (extract raabb (p :: ps) AABB).type = AABB ∧ (extract raabb (p :: ps) AABB).dims.FiniteAt ∧ (extract raabb (p :: ps) AABB).center.FiniteAt ∧
    (∀ i lo hi, (∀ q ∈ p :: ps, lo ≤ q.coord i ∧ q.coord i ≤ hi) → (∃ q ∈ p :: ps, q.coord i = lo) → (∃ q ∈ p :: ps, q.coord i = hi) →
      2 ^ 24 * ((extract raabb (p :: ps) AABB).dims.coord i - (hi - lo)).natAbs ≤ hi - lo) ∧
    ((extract raabb (p :: ps) AABB).isValid = true ↔ ∀ i, ∃ q ∈ p :: ps, ∃ r ∈ p :: ps, q.coord i ≠ r.coord i) := by
  have ax := fun i => fit_axis (raabb := raabb) hf i (fun q hq => hb q hq i)
  have fd : (extract raabb (p :: ps) AABB).dims.FiniteAt := fun i => by obtain ⟨_, _, s, _⟩ := ax i; exact s.dFinite
  have fc : (extract raabb (p :: ps) AABB).center.FiniteAt := fun i => by obtain ⟨_, _, s, _⟩ := ax i; exact s.cFinite
  refine ⟨rfl, fd, fc, ?_, ?_⟩
  · intro i lo hi h1 ⟨q1, m1, e1⟩ ⟨q2, m2, e2⟩
    obtain ⟨mn, mx, s, r, ⟨q3, m3, e3⟩, ⟨q4, m4, e4⟩⟩ := ax i
    have k1 := h1 q3 m3
    have k2 := h1 q4 m4
    have k3 := r q1 m1
    have k4 := r q2 m2
    have d := s.dErr
    have e5 : ((extract raabb (p :: ps) AABB).dims.at i).val = (extract raabb (p :: ps) AABB).dims.coord i := rfl
    omega
  · have pos : ∀ i, 0 < (extract raabb (p :: ps) AABB).dims.coord i ↔ ∃ q ∈ p :: ps, ∃ r ∈ p :: ps, q.coord i ≠ r.coord i := by
      intro i
      obtain ⟨mn, mx, s, r, ⟨q3, m3, e3⟩, ⟨q4, m4, e4⟩⟩ := ax i
      show 0 < ((extract raabb (p :: ps) AABB).dims.at i).val ↔ _
      rw [s.dval, fl_pos_iff]
      constructor
      · intro h
        exact ⟨q3, m3, q4, m4, by omega⟩
      · intro ⟨x, hx, y, hy, h⟩
        have := r x hx
        have := r y hy
        omega
    constructor
    · intro h i
      exact (pos i).1 ((proper_of h rfl fd fc).positive i)
    · intro h
      exact (Proper.mk rfl fd fc (fun i => (pos i).2 (h i))).valid

/-- C57: every point is within the fitted box up to the precision of the coordinates: if these are at most `M`, a point is at most `M/2^24`
and half a unit outside. -/
theorem C57_fit_close (raabb : List V3f → BBox) (p : V3f) (ps : List V3f) (hf : ∀ q ∈ p :: ps, q.FiniteAt) (i : Axis) (M : Nat)
    (hM : M < 2 ^ 276) (hb : ∀ q ∈ p :: ps, (q.coord i).natAbs ≤ M) (q : V3f) (hq : q ∈ p :: ps) :
    2 ^ 24 * (2 * (q.coord i - (extract raabb (p :: ps) AABB).center.coord i).natAbs) ≤ 2 ^ 24 * ((extract raabb (p :: ps) AABB).dims.coord i + 1) + 2 * M := by
  obtain ⟨mn, mx, s, r, ⟨q3, m3, e3⟩, ⟨q4, m4, e4⟩⟩ := fit_axis (raabb := raabb) hf i (fun q hq => Nat.lt_of_le_of_lt (hb q hq) hM)
  have k1 := hb q3 m3
  have k2 := hb q4 m4
  have k3 := r q hq
  have d := s.dErr
  have c := s.cval
  have se := s.sErr
  have e5 : ((extract raabb (p :: ps) AABB).dims.at i).val = (extract raabb (p :: ps) AABB).dims.coord i := rfl
  have e6 : ((extract raabb (p :: ps) AABB).center.at i).val = (extract raabb (p :: ps) AABB).center.coord i := rfl
  rw [e5] at d
  rw [e6] at c
  clear hM hb hf s r
  omega

/-- C57: on a grid the fit is exact: the centre is half way, the dimensions are the extent, and if the box is valid, it contains all points. -/
theorem C57_fit_exact_on_a_grid (raabb : List V3f → BBox) (p : V3f) (ps : List V3f) (g : Nat) (hg : 1 ≤ g ∧ g ≤ 252) (hf : ∀ q ∈ p :: ps, q.FiniteAt)
    (hgr : ∀ q ∈ p :: ps, q.OnGrid g) :
    (∀ i lo hi, (∀ q ∈ p :: ps, lo ≤ q.coord i ∧ q.coord i ≤ hi) → (∃ q ∈ p :: ps, q.coord i = lo) → (∃ q ∈ p :: ps, q.coord i = hi) →
      (extract raabb (p :: ps) AABB).dims.coord i = hi - lo ∧ 2 * (extract raabb (p :: ps) AABB).center.coord i = lo + hi) ∧
    ((extract raabb (p :: ps) AABB).isValid = true → ∀ q ∈ p :: ps, (extract raabb (p :: ps) AABB).contains q = true) := by
  have hb : ∀ q ∈ p :: ps, ∀ i, (q.coord i).natAbs < 2 ^ 276 := by
    intro q hq i
    obtain ⟨k, hk, bk⟩ := (hgr q hq).cell i
    rw [hk]
    exact cells_lt (by omega) _ (by omega)
  have ax : ∀ i, ∃ mn mx : Int, (∀ q ∈ p :: ps, mn ≤ q.coord i ∧ q.coord i ≤ mx) ∧ (∃ q ∈ p :: ps, mn = q.coord i) ∧ (∃ q ∈ p :: ps, mx = q.coord i) ∧
      (extract raabb (p :: ps) AABB).dims.coord i = mx - mn ∧ 2 * (extract raabb (p :: ps) AABB).center.coord i = mn + mx := by
    intro i
    obtain ⟨mn, mx, s, r, ⟨q3, m3, e3⟩, ⟨q4, m4, e4⟩⟩ := fit_axis (raabb := raabb) hf i (fun q hq => hb q hq i)
    refine ⟨mn.val, mx.val, r, ⟨q3, m3, e3⟩, ⟨q4, m4, e4⟩, ?_, ?_⟩
    · refine s.dval.trans ?_
      obtain ⟨k, hk, bk⟩ := (hgr q3 m3).cell i
      obtain ⟨l, hl, bl⟩ := (hgr q4 m4).cell i
      rw [e3, e4, hk, hl, ← Int.mul_sub, fl_cells (by omega) _ (by omega)]
    · obtain ⟨k, hk, bk⟩ := (hgr q3 m3).cell i
      obtain ⟨l, hl, bl⟩ := (hgr q4 m4).cell i
      have e : fl (mn.val + mx.val) = mn.val + mx.val := by rw [e3, e4, hk, hl, ← Int.mul_add, fl_cells (by omega) _ (by omega)]
      have := s.cexact
      rw [e] at this
      apply this
      rw [e3, e4, hk, hl, ← Int.mul_add]
      exact pow_even hg.1 _
  constructor
  · intro i lo hi h1 ⟨q1, m1, e1⟩ ⟨q2, m2, e2⟩
    obtain ⟨mn, mx, r, ⟨q3, m3, e3⟩, ⟨q4, m4, e4⟩, d, c⟩ := ax i
    have k1 := h1 q3 m3
    have k2 := h1 q4 m4
    have k3 := r q1 m1
    have k4 := r q2 m2
    omega
  · intro hv q hq
    obtain ⟨t, fd, fc, _, _⟩ := C57_fit raabb p ps hf hb
    refine C55_no_point_missed _ q (proper_of hv t fd fc) (hf q hq) (fun i => ?_)
    obtain ⟨mn, mx, r, _, _, d, c⟩ := ax i
    have := r q hq
    omega

/-- No box is fitted to no points, and none of type OBB. -/
theorem C57_no_fit (raabb : List V3f → BBox) (points : List V3f) : (∀ type, (extract raabb [] type).isValid = false) ∧ (extract raabb points OBB).isValid = false := by
  refine ⟨fun _ => rfl, ?_⟩
  cases points <;> rfl

/-! ## Merging -/

/-- C57: merging an invalid box changes nothing, and merging into an invalid box copies the other. -/
theorem C57_merge_invalid (raabb : List V3f → BBox) (a b : BBox) :
    (b.isValid = false → a.merge raabb b = a) ∧ (a.isValid = false → b.isValid = true → a.merge raabb b = b) := by
  constructor
  · intro h; unfold merge; rw [h]; rfl
  · intro h h'; unfold merge; rw [h, h']; rfl

/-- C57: merging two boxes whose sides are at most `M` from the origin: the result is axis-aligned and finite; a point of either box is at most
`2.5 M/2^24` and a unit outside of the result; the result extends at most `5 M/2^24` and a unit beyond any bounds of both boxes. -/
theorem C57_merge_close (raabb : List V3f → BBox) (a b : BBox) (ha : a.Proper) (hb : b.Proper) (i : Axis) (M : Nat) (hM : M ≤ 2 ^ 275)
    (h1 : 2 * (a.center.coord i).natAbs + a.dims.coord i + 1 ≤ 2 * M) (h2 : 2 * (b.center.coord i).natAbs + b.dims.coord i + 1 ≤ 2 * M) :
    (a.merge raabb b).type = AABB ∧ F32.finite ((a.merge raabb b).dims.at i) = true ∧ F32.finite ((a.merge raabb b).center.at i) = true ∧
    (∀ q : V3f, (a.Has q ∨ b.Has q) →
      2 ^ 24 * (2 * (q.coord i - (a.merge raabb b).center.coord i).natAbs) ≤ 2 ^ 24 * ((a.merge raabb b).dims.coord i + 2) + 5 * M) ∧
    (∀ lo hi : Int, 2 * lo ≤ 2 * a.center.coord i - a.dims.coord i → 2 * lo ≤ 2 * b.center.coord i - b.dims.coord i →
      2 * a.center.coord i + a.dims.coord i ≤ 2 * hi → 2 * b.center.coord i + b.dims.coord i ≤ 2 * hi →
      2 ^ 24 * (a.merge raabb b).dims.coord i ≤ 2 ^ 24 * (hi - lo + 1) + 5 * M) := by
  obtain ⟨a1, a2, a3, a4, a5, a6⟩ := ha.corners_near i M hM h1
  obtain ⟨b1, b2, b3, b4, b5, b6⟩ := hb.corners_near i M hM h2
  obtain ⟨mn, mx, s, v1, v2⟩ := merge_axis ha hb raabb i a1 b1 a2 b2
  have d := s.dErr
  have c := s.cval
  have se := s.sErr
  have e5 : ((a.merge raabb b).dims.at i).val = (a.merge raabb b).dims.coord i := rfl
  have e6 : ((a.merge raabb b).center.at i).val = (a.merge raabb b).center.coord i := rfl
  rw [e5] at d
  rw [e6] at c
  have hxm : mn.val ≤ mx.val ∧ 2 ^ 24 * mn.val.natAbs ≤ (2 ^ 24 + 1) * M ∧ 2 ^ 24 * mx.val.natAbs ≤ (2 ^ 24 + 1) * M := by
    have o1 : a.minCorner.coord i ≤ a.maxCorner.coord i := by
      rw [(ha.minCorner_val i).2, (ha.maxCorner_val i).2]
      have := half_pos (ha.dims i) (ha.positive i)
      exact fl_mono (by omega)
    refine ⟨?_, ?_, ?_⟩
    · rw [v1, v2]; omega
    · rw [v1]; rcases Int.le_total (a.minCorner.coord i) (b.minCorner.coord i) with h | h
      · rw [Int.min_eq_left h]; exact a5
      · rw [Int.min_eq_right h]; exact b5
    · rw [v2]; rcases Int.le_total (a.maxCorner.coord i) (b.maxCorner.coord i) with h | h
      · rw [Int.max_eq_right h]; exact b6
      · rw [Int.max_eq_left h]; exact a6
  clear a1 a2 b1 b2
  refine ⟨by rw [ha.merge_eq hb]; exact ha.axisAligned, s.dFinite, s.cFinite, ?_, ?_⟩
  · intro q hq
    have hq' : 2 * (q.coord i - a.center.coord i).natAbs ≤ a.dims.coord i ∨ 2 * (q.coord i - b.center.coord i).natAbs ≤ b.dims.coord i :=
      hq.imp (fun h => h i) (fun h => h i)
    have hl : 2 ^ 24 * (2 * mn.val - 2 * q.coord i) ≤ 2 ^ 24 + 2 * M ∧ 2 ^ 24 * (2 * q.coord i - 2 * mx.val) ≤ 2 ^ 24 + 2 * M := by
      rw [v1, v2]
      rcases hq' with hq' | hq'
      · have k1 := merge_side a3
        have k2 := merge_side a4
        omega
      · have k1 := merge_side b3
        have k2 := merge_side b4
        omega
    exact merge_point d c se hxm.1 hxm.2.1 hxm.2.2 hl.1 hl.2
  · intro lo hi l1 l2 l3 l4
    have n1 : 2 ^ 24 * (2 * lo - 2 * mn.val) ≤ 2 ^ 24 + 2 * M := by
      rw [v1]
      have k1 := merge_side a3
      have k3 := merge_side b3
      clear a3 b3 a4 b4 a5 b5 a6 b6 d c se hxm v1 v2 h1 h2 hM
      omega
    have n2 : 2 ^ 24 * (2 * mx.val - 2 * hi) ≤ 2 ^ 24 + 2 * M := by
      rw [v2]
      have k2 := merge_side a4
      have k4 := merge_side b4
      clear a3 b3 a4 b4 a5 b5 a6 b6 d c se hxm v1 v2 h1 h2 hM n1
      omega
    exact merge_tight d hxm.1 hxm.2.1 hxm.2.2 n1 n2

/-- C57: on a grid the merged box is exact: it is the smallest box around both, and contains every point of them. -/
theorem C57_merge_exact_on_a_grid (raabb : List V3f → BBox) (a b : BBox) (g : Nat) (hg : 1 ≤ g ∧ g ≤ 252) (ha : a.Proper) (hb : b.Proper)
    (h1 : a.center.OnGrid g) (h2 : a.dims.OnGrid g) (h3 : b.center.OnGrid g) (h4 : b.dims.OnGrid g) :
    (∀ i, 2 * (a.merge raabb b).dims.coord i =
        max (2 * a.center.coord i + a.dims.coord i) (2 * b.center.coord i + b.dims.coord i) - min (2 * a.center.coord i - a.dims.coord i) (2 * b.center.coord i - b.dims.coord i) ∧
      4 * (a.merge raabb b).center.coord i =
        max (2 * a.center.coord i + a.dims.coord i) (2 * b.center.coord i + b.dims.coord i) + min (2 * a.center.coord i - a.dims.coord i) (2 * b.center.coord i - b.dims.coord i)) ∧
    (a.merge raabb b).Proper ∧
    ∀ q : V3f, q.FiniteAt → (a.Has q ∨ b.Has q) → (a.merge raabb b).contains q = true := by
  have ax : ∀ i, F32.finite ((a.merge raabb b).dims.at i) = true ∧ F32.finite ((a.merge raabb b).center.at i) = true ∧
      2 * (a.merge raabb b).dims.coord i =
        max (2 * a.center.coord i + a.dims.coord i) (2 * b.center.coord i + b.dims.coord i) - min (2 * a.center.coord i - a.dims.coord i) (2 * b.center.coord i - b.dims.coord i) ∧
      4 * (a.merge raabb b).center.coord i =
        max (2 * a.center.coord i + a.dims.coord i) (2 * b.center.coord i + b.dims.coord i) + min (2 * a.center.coord i - a.dims.coord i) (2 * b.center.coord i - b.dims.coord i) := by
    intro i
    obtain ⟨ca, ka, A⟩ := ha.cells hg h1 h2 i
    obtain ⟨cb, kb, B⟩ := hb.cells hg h3 h4 i
    have q1 := A.bc
    have q2 := A.bh
    have q3 := B.bc
    have q4 := B.bh
    obtain ⟨mn, mx, s, v1, v2⟩ := merge_axis ha hb raabb i (by rw [A.min]; exact cells_lt (by omega) _ (by omega)) (by rw [B.min]; exact cells_lt (by omega) _ (by omega))
      (by rw [A.max]; exact cells_lt (by omega) _ (by omega)) (by rw [B.max]; exact cells_lt (by omega) _ (by omega))
    refine ⟨s.dFinite, s.cFinite, ?_⟩
    rw [A.min, B.min, cell_min] at v1
    rw [A.max, B.max, cell_max] at v2
    have d := s.dval
    have c := s.cexact
    rw [v1, v2, ← Int.mul_sub, fl_cells (by omega) _ (by omega)] at d
    rw [v1, v2, ← Int.mul_add, fl_cells (by omega) _ (by omega)] at c
    have c := c (pow_even hg.1 _)
    have e5 : ((a.merge raabb b).dims.at i).val = (a.merge raabb b).dims.coord i := rfl
    have e6 : ((a.merge raabb b).center.at i).val = (a.merge raabb b).center.coord i := rfl
    rw [e5] at d
    rw [e6] at c
    have f1 : 2 * a.center.coord i + a.dims.coord i = 2 ^ g * (2 * (2 * ca + ka)) := by
      rw [A.center, A.dims, Int.mul_left_comm 2 (2 ^ g), ← Int.mul_add]; congr 1; omega
    have f2 : 2 * b.center.coord i + b.dims.coord i = 2 ^ g * (2 * (2 * cb + kb)) := by
      rw [B.center, B.dims, Int.mul_left_comm 2 (2 ^ g), ← Int.mul_add]; congr 1; omega
    have f3 : 2 * a.center.coord i - a.dims.coord i = 2 ^ g * (2 * (2 * ca - ka)) := by
      rw [A.center, A.dims, Int.mul_left_comm 2 (2 ^ g), ← Int.mul_sub]; congr 1; omega
    have f4 : 2 * b.center.coord i - b.dims.coord i = 2 ^ g * (2 * (2 * cb - kb)) := by
      rw [B.center, B.dims, Int.mul_left_comm 2 (2 ^ g), ← Int.mul_sub]; congr 1; omega
    rw [f1, f2, f3, f4, cell_max, cell_min, ← Int.mul_sub, ← Int.mul_add, d]
    refine ⟨?_, ?_⟩
    · rw [Int.mul_left_comm]; congr 1; omega
    · rw [show (4 : Int) = 2 * 2 from rfl, Int.mul_assoc, c, Int.mul_left_comm]; congr 1; omega
  have pr : (a.merge raabb b).Proper := by
    refine ⟨by rw [ha.merge_eq hb]; exact ha.axisAligned, fun i => (ax i).1, fun i => (ax i).2.1, fun i => ?_⟩
    have := (ax i).2.2.1
    have := ha.positive i
    omega
  refine ⟨fun i => (ax i).2.2, pr, fun q hq h => C55_no_point_missed _ q pr hq (fun i => ?_)⟩
  obtain ⟨_, _, d, c⟩ := ax i
  have hq' : 2 * (q.coord i - a.center.coord i).natAbs ≤ a.dims.coord i ∨ 2 * (q.coord i - b.center.coord i).natAbs ≤ b.dims.coord i :=
    h.imp (fun h => h i) (fun h => h i)
  omega

end BBox
end Verif
