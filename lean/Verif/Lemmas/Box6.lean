import Verif.Lemmas.Box5
/-! # One axis of fitted and merged boxes -/

namespace Verif
open F32
namespace BBox

/-- One axis of a fitted box. -/
theorem fit_axis {raabb : List V3f → BBox} {p : V3f} {ps : List V3f} (hf : ∀ q ∈ p :: ps, q.FiniteAt) (i : Axis) (hb : ∀ q ∈ p :: ps, (q.coord i).natAbs < 2 ^ 276) :
    ∃ mn mx : F32, Spans mn mx ((extract raabb (p :: ps) AABB).dims.at i) ((extract raabb (p :: ps) AABB).center.at i) ∧
      (∀ q ∈ p :: ps, mn.val ≤ q.coord i ∧ q.coord i ≤ mx.val) ∧ (∃ q ∈ p :: ps, mn.val = q.coord i) ∧ (∃ q ∈ p :: ps, mx.val = q.coord i) := by
  obtain ⟨a1, a2, q1, a3, a4⟩ := foldl_min (ps := ps) i (hf p (by simp) i) (fun q hq => hf q (by simp [hq]) i)
  obtain ⟨b1, b2, q2, b3, b4⟩ := foldl_max (ps := ps) i (hf p (by simp) i) (fun q hq => hf q (by simp [hq]) i)
  refine ⟨_, _, ?_, fun q hq => ⟨a2 q hq, b2 q hq⟩, ⟨q1, a3, a4⟩, ⟨q2, b3, b4⟩⟩
  have e1 : (extract raabb (p :: ps) AABB).dims.at i = ((ps.foldl (V3f.zip F32.max') p).at i).sub ((ps.foldl (V3f.zip F32.min') p).at i) := V3f.at_sub ..
  have e2 : (extract raabb (p :: ps) AABB).center.at i = (((ps.foldl (V3f.zip F32.min') p).at i).add ((ps.foldl (V3f.zip F32.max') p).at i)).half :=
    (V3f.at_map ..).trans (congrArg F32.half (V3f.at_add ..))
  rw [e1, e2]
  apply spans (finite_notNan a1) (finite_notNan b1)
  · have := hb q1 a3; rw [← a4] at this; exact this
  · have := hb q2 b3; rw [← b4] at this; exact this

theorem Proper.merge_eq {a b : BBox} (ha : a.Proper) (hb : b.Proper) (raabb : List V3f → BBox) : a.merge raabb b = a.mergeAABB b := by
  unfold merge
  rw [ha.valid, hb.valid, ha.axisAligned, hb.axisAligned]
  rfl

/-- One axis of merged boxes. -/
theorem merge_axis {a b : BBox} (ha : a.Proper) (hb : b.Proper) (raabb : List V3f → BBox) (i : Axis)
    (h1 : (a.minCorner.coord i).natAbs < 2 ^ 276) (h2 : (b.minCorner.coord i).natAbs < 2 ^ 276)
    (h3 : (a.maxCorner.coord i).natAbs < 2 ^ 276) (h4 : (b.maxCorner.coord i).natAbs < 2 ^ 276) :
    ∃ mn mx : F32, Spans mn mx ((a.merge raabb b).dims.at i) ((a.merge raabb b).center.at i) ∧
      mn.val = min (a.minCorner.coord i) (b.minCorner.coord i) ∧ mx.val = max (a.maxCorner.coord i) (b.maxCorner.coord i) := by
  rw [ha.merge_eq hb]
  have v1 := min'_val (ha.minCorner_val i).1 (hb.minCorner_val i).1
  have v2 := max'_val (ha.maxCorner_val i).1 (hb.maxCorner_val i).1
  have n1 := min'_notNan (ha.minCorner_val i).1 (hb.minCorner_val i).1
  have n2 := max'_notNan (ha.maxCorner_val i).1 (hb.maxCorner_val i).1
  have e1 : (a.mergeAABB b).dims.at i = (F32.max' (a.maxCorner.at i) (b.maxCorner.at i)).sub (F32.min' (a.minCorner.at i) (b.minCorner.at i)) := by
    unfold mergeAABB; rw [V3f.at_sub, V3f.at_zip, V3f.at_zip]
  have e2 : (a.mergeAABB b).center.at i = ((F32.min' (a.minCorner.at i) (b.minCorner.at i)).add (F32.max' (a.maxCorner.at i) (b.maxCorner.at i))).half := by
    unfold mergeAABB; rw [V3f.at_map, V3f.at_add, V3f.at_zip, V3f.at_zip]
  rw [e1, e2]
  refine ⟨_, _, spans n1 n2 ?_ ?_, v1, v2⟩
  · rw [v1]
    have g1 : (a.minCorner.at i).val = a.minCorner.coord i := rfl
    have g2 : (b.minCorner.at i).val = b.minCorner.coord i := rfl
    rw [g1, g2]
    generalize 2 ^ 276 = u at *
    omega
  · rw [v2]
    have g1 : (a.maxCorner.at i).val = a.maxCorner.coord i := rfl
    have g2 : (b.maxCorner.at i).val = b.maxCorner.coord i := rfl
    rw [g1, g2]
    generalize 2 ^ 276 = u at *
    omega

/-- The corners of a box, up to rounding. -/
theorem Proper.corners_near {a : BBox} (ha : a.Proper) (i : Axis) (M : Nat) (hM : M ≤ 2 ^ 275)
    (h : 2 * (a.center.coord i).natAbs + a.dims.coord i + 1 ≤ 2 * M) :
    (a.minCorner.coord i).natAbs < 2 ^ 276 ∧ (a.maxCorner.coord i).natAbs < 2 ^ 276 ∧
    2 ^ 24 * (2 * a.minCorner.coord i - (2 * a.center.coord i - a.dims.coord i)).natAbs ≤ 2 ^ 24 + 2 * M ∧
    2 ^ 24 * (2 * a.maxCorner.coord i - (2 * a.center.coord i + a.dims.coord i)).natAbs ≤ 2 ^ 24 + 2 * M ∧
    2 ^ 24 * (a.minCorner.coord i).natAbs ≤ (2 ^ 24 + 1) * M ∧ 2 ^ 24 * (a.maxCorner.coord i).natAbs ≤ (2 ^ 24 + 1) * M := by
  have hh := half_pos (ha.dims i) (ha.positive i)
  have e : (a.dims.at i).val = a.dims.coord i := rfl
  rw [e] at hh
  have key : ∀ n : Int, n.natAbs ≤ M → (fl n).natAbs < top := by
    intro n hn
    apply fl_lt_top
    refine Nat.le_trans (Nat.le_trans hn hM) ?_
    decide +kernel
  have k1 := fl_err (key (a.center.coord i - (a.dims.at i).half.val) (by omega))
  have k2 := fl_err (key (a.center.coord i + (a.dims.at i).half.val) (by omega))
  rw [(ha.minCorner_val i).2, (ha.maxCorner_val i).2]
  have hM' : 2 * M ≤ 2 ^ 276 := by rw [Nat.pow_succ, Nat.mul_comm]; exact Nat.mul_le_mul_right _ hM
  have hp := ha.positive i
  generalize (2 : Nat) ^ 276 = u at *
  generalize fl (a.center.coord i - (a.dims.at i).half.val) = f1 at *
  generalize fl (a.center.coord i + (a.dims.at i).half.val) = f2 at *
  clear key e hM
  refine ⟨?_, ?_, ?_, ?_, ?_, ?_⟩ <;> omega

theorem merge_side {x : Int} {n : Nat} (h : 2 ^ 24 * x.natAbs ≤ n) : -(n : Int) ≤ 2 ^ 24 * x ∧ 2 ^ 24 * x ≤ n := by omega

theorem merge_point {D C S m x q : Int} {M : Nat} (d : 2 ^ 24 * (D - (x - m)).natAbs ≤ (x - m).natAbs) (c : 2 * C ≤ S + 1 ∧ S ≤ 2 * C + 1)
    (se : 2 ^ 24 * (S - (m + x)).natAbs ≤ (m + x).natAbs) (hxm : m ≤ x) (h1 : 2 ^ 24 * m.natAbs ≤ (2 ^ 24 + 1) * M) (h2 : 2 ^ 24 * x.natAbs ≤ (2 ^ 24 + 1) * M)
    (l1 : 2 ^ 24 * (2 * m - 2 * q) ≤ 2 ^ 24 + 2 * M) (l2 : 2 ^ 24 * (2 * q - 2 * x) ≤ 2 ^ 24 + 2 * M) :
    2 ^ 24 * (2 * (q - C).natAbs) ≤ 2 ^ 24 * (D + 2) + 5 * M := by
  have d' := merge_side d
  have se' := merge_side se
  have h1' := merge_side h1
  have h2' := merge_side h2
  have hb : 2 ^ 24 * ((m + x).natAbs + (x - m)) ≤ 2 * (2 ^ 24 + 1) * M := by omega
  clear d se h1 h2 h1' h2'
  have e1 : (((x - m).natAbs : Nat) : Int) = x - m := by omega
  rw [e1] at d'
  generalize (m + x).natAbs = A at *
  rcases Int.le_total 0 (q - C) with h | h
  · have : ((q - C).natAbs : Int) = q - C := by omega
    rw [this]
    omega
  · have : ((q - C).natAbs : Int) = C - q := by omega
    rw [this]
    omega

theorem merge_tight {D m x lo hi : Int} {M : Nat} (d : 2 ^ 24 * (D - (x - m)).natAbs ≤ (x - m).natAbs) (hxm : m ≤ x)
    (h1 : 2 ^ 24 * m.natAbs ≤ (2 ^ 24 + 1) * M) (h2 : 2 ^ 24 * x.natAbs ≤ (2 ^ 24 + 1) * M)
    (l1 : 2 ^ 24 * (2 * lo - 2 * m) ≤ 2 ^ 24 + 2 * M) (l2 : 2 ^ 24 * (2 * x - 2 * hi) ≤ 2 ^ 24 + 2 * M) :
    2 ^ 24 * D ≤ 2 ^ 24 * (hi - lo + 1) + 5 * M := by
  have d' := merge_side d
  have h1' := merge_side h1
  have h2' := merge_side h2
  clear d h1 h2
  have e1 : (((x - m).natAbs : Nat) : Int) = x - m := by omega
  rw [e1] at d'
  omega

end BBox
end Verif
