import Verif.Lemmas.Hull2
/-! # Points on a raster: turns are computed exactly -/

namespace Verif
namespace Hull
open F32

set_option exponentiation.threshold 300

theorem two_pow_nat {g k : Nat} (h : k ≤ 2 * g) : (2 : Nat) ^ g * 2 ^ g = 2 ^ (2 * g - k) * 2 ^ k := by
  rw [← Nat.pow_add, ← Nat.pow_add]; congr 1; omega
theorem two_pow_int {g k : Nat} (h : k ≤ 2 * g) : (2 : Int) ^ g * 2 ^ g = 2 ^ (2 * g - k) * 2 ^ k := by
  rw [← Int.pow_add, ← Int.pow_add]; congr 1; omega
theorem mul_four (a b c d : Int) : a * b * (c * d) = a * c * (b * d) := by ac_rfl

theorem mul_cells {x y : F32} {g : Nat} {a b : Int} (hx : F32.finite x = true) (hy : F32.finite y = true) (ex : x.val = 2 ^ g * a) (ey : y.val = 2 ^ g * b)
    (h1 : 75 ≤ g) (h2 : g ≤ 200) (hab : (a * b).natAbs < 2 ^ 24) : F32.finite (x.mul y) = true ∧ (x.mul y).val = 2 ^ (2 * g - 149) * (a * b) := by
  obtain ⟨n, v⟩ := mul_val' hx hy
  have sg := mul_sign x y
  have ep : x.val.natAbs * y.val.natAbs = 2 ^ (2 * g - 149) * (a * b).natAbs * 2 ^ 149 := by
    rw [ex, ey, Int.natAbs_mul, Int.natAbs_mul, Int.natAbs_mul, Int.natAbs_pow]
    have e2 : Int.natAbs 2 = 2 := rfl
    rw [e2, Nat.mul_mul_mul_comm, two_pow_nat (k := 149) (by omega), Nat.mul_right_comm]
  have er : magVal (roundMag (x.val.natAbs * y.val.natAbs) (2 ^ 149)) = 2 ^ (2 * g - 149) * (a * b).natAbs := by
    rw [roundMag_congr (p' := 2 ^ (2 * g - 149) * (a * b).natAbs) (q' := 1) (Nat.two_pow_pos _) (by decide) (by rw [ep, Nat.mul_one])]
    have := fl_cells (g := 2 * g - 149) (by omega) ((a * b).natAbs : Int) (by simpa using hab)
    have e : (2 : Int) ^ (2 * g - 149) * ((a * b).natAbs : Int) = ((2 ^ (2 * g - 149) * (a * b).natAbs : Nat) : Int) := by
      rw [Int.natCast_mul, Int.natCast_pow]; rfl
    rw [e, fl_ofNat] at this
    exact Int.ofNat.inj this
  have ev : (x.mul y).val = 2 ^ (2 * g - 149) * (a * b) := by
    rw [v, er]
    have e2 : x.val * y.val = (2 ^ (2 * g - 149) * (a * b)) * 2 ^ 149 := by
      rw [ex, ey]
      rw [mul_four, two_pow_int (k := 149) (by omega), Int.mul_right_comm]
    rw [e2, ep] at sg
    have e3 : ((2 ^ (2 * g - 149) * (a * b).natAbs * 2 ^ 149 : Nat) : Int) = ((2 ^ (2 * g - 149) * (a * b).natAbs : Nat) : Int) * 2 ^ 149 := by
      rw [Int.natCast_mul, Int.natCast_pow]; rfl
    rw [e3] at sg
    have p149 : (0 : Int) < 2 ^ 149 := by decide
    split at sg
    · rename_i h
      rw [if_pos h]
      rw [← Int.neg_mul] at sg
      exact (Int.eq_of_mul_eq_mul_right (Int.ne_of_gt p149) sg).symm
    · rename_i h
      rw [if_neg h]
      exact (Int.eq_of_mul_eq_mul_right (Int.ne_of_gt p149) sg).symm
  refine ⟨?_, ev⟩
  rw [finite_iff_val n, ev]
  exact Nat.lt_trans (cells_lt (by omega) _ hab) (Nat.pow_lt_pow_right (by decide) (by decide))

theorem Raster.diffX {g D : Nat} {ps : List V3f} (h : Raster g D ps) {p q : V3f} (hp : p ∈ ps) (hq : q ∈ ps) :
    ∃ k : Int, p.coord .x - q.coord .x = 2 ^ g * k ∧ k.natAbs ≤ D := by
  obtain ⟨k, hk⟩ := Int.dvd_sub (h.x p hp) (h.x q hq)
  refine ⟨k, hk, ?_⟩
  have := h.nearX p hp q hq
  rw [hk, Int.natAbs_mul, Int.natAbs_pow, Nat.mul_comm] at this
  exact Nat.le_of_mul_le_mul_right this (Nat.two_pow_pos _)
theorem Raster.diffY {g D : Nat} {ps : List V3f} (h : Raster g D ps) {p q : V3f} (hp : p ∈ ps) (hq : q ∈ ps) :
    ∃ k : Int, p.coord .y - q.coord .y = 2 ^ g * k ∧ k.natAbs ≤ D := by
  obtain ⟨k, hk⟩ := Int.dvd_sub (h.y p hp) (h.y q hq)
  refine ⟨k, hk, ?_⟩
  have := h.nearY p hp q hq
  rw [hk, Int.natAbs_mul, Int.natAbs_pow, Nat.mul_comm] at this
  exact Nat.le_of_mul_le_mul_right this (Nat.two_pow_pos _)

theorem sub_cells {x y : F32} {g : Nat} {k : Int} (hx : F32.finite x = true) (hy : F32.finite y = true) (hg : g ≤ 200) (e : x.val - y.val = 2 ^ g * k)
    (hk : k.natAbs < 2 ^ 24) : F32.finite (x.sub y) = true ∧ (x.sub y).val = 2 ^ g * k := by
  obtain ⟨n, v⟩ := sub_val hx hy
  rw [e, fl_cells (by omega) k hk] at v
  refine ⟨?_, v⟩
  rw [finite_iff_val n, v]
  exact Nat.lt_trans (cells_lt (by omega) _ hk) (Nat.pow_lt_pow_right (by decide) (by decide))

theorem mul_small {a b : Int} {D : Nat} (hD : D ≤ 2047) (ha : a.natAbs ≤ D) (hb : b.natAbs ≤ D) : (a * b).natAbs < 2 ^ 22 := by
  rw [Int.natAbs_mul]
  calc a.natAbs * b.natAbs ≤ 2047 * 2047 := Nat.mul_le_mul (by omega) (by omega)
    _ < 2 ^ 22 := by decide

/-- The joint direction is negative exactly if the way turns left. -/
theorem joint_iff {g D : Nat} {ps : List V3f} (ht : Tidy ps) (h : Raster g D ps) (h1 : 75 ≤ g) (h2 : g ≤ 200) (hD : D ≤ 2047) {a b c : V3f} (ha : a ∈ ps) (hb : b ∈ ps)
    (hc : c ∈ ps) : (getJointDirection b a c).lt 0 = true ↔ 0 < a.turn b c := by
  obtain ⟨k1, e1, l1⟩ := h.diffX ha hb
  obtain ⟨k2, e2, l2⟩ := h.diffY ha hb
  obtain ⟨k3, e3, l3⟩ := h.diffX hc hb
  obtain ⟨k4, e4, l4⟩ := h.diffY hc hb
  have fa := ht.finite a ha
  have fb := ht.finite b hb
  have fc := ht.finite c hc
  obtain ⟨f1, v1⟩ := sub_cells (fa .x) (fb .x) h2 e1 (by omega)
  obtain ⟨f2, v2⟩ := sub_cells (fa .y) (fb .y) h2 e2 (by omega)
  obtain ⟨f3, v3⟩ := sub_cells (fc .x) (fb .x) h2 e3 (by omega)
  obtain ⟨f4, v4⟩ := sub_cells (fc .y) (fb .y) h2 e4 (by omega)
  have s14 := mul_small hD l1 l4
  have s23 := mul_small hD l2 l3
  obtain ⟨m1, w1⟩ := mul_cells f1 f4 v1 v4 h1 h2 (by omega)
  obtain ⟨m2, w2⟩ := mul_cells f2 f3 v2 v3 h1 h2 (by omega)
  have es : (((a.at .x).sub (b.at .x)).mul ((c.at .y).sub (b.at .y))).val - (((a.at .y).sub (b.at .y)).mul ((c.at .x).sub (b.at .x))).val = 2 ^ (2 * g - 149) * (k1 * k4 - k2 * k3) := by
    rw [w1, w2, Int.mul_sub]
  obtain ⟨n, v⟩ := sub_val m1 m2
  have ev : (getJointDirection b a c).val = fl (2 ^ (2 * g - 149) * (k1 * k4 - k2 * k3)) := by rw [← es]; exact v
  have en : (getJointDirection b a c).isNan = false := n
  have z0 : isNan (0 : F32) = false := by decide +kernel
  have z1 : val (0 : F32) = 0 := by decide +kernel
  rw [lt_iff en z0, z1, ev, fl_neg_iff]
  have et : a.turn b c = (2 ^ g * 2 ^ g) * -(k1 * k4 - k2 * k3) := by
    have e5 : a.turn b c = -((a.coord .x - b.coord .x) * (c.coord .y - b.coord .y) - (a.coord .y - b.coord .y) * (c.coord .x - b.coord .x)) := by
      unfold V3f.turn
      generalize a.coord .x = ax; generalize a.coord .y = ay; generalize b.coord .x = bx; generalize b.coord .y = by'
      generalize c.coord .x = cx; generalize c.coord .y = cy
      simp only [Int.mul_sub, Int.mul_comm]
      omega
    rw [e5, e1, e2, e3, e4, Int.mul_neg, Int.mul_sub]
    congr 1
    congr 1 <;> ac_rfl
  rw [et]
  have p1 : (0 : Int) < 2 ^ (2 * g - 149) := cell_pos
  have p2 : (0 : Int) < 2 ^ g * 2 ^ g := Int.mul_pos cell_pos cell_pos
  generalize (2 : Int) ^ (2 * g - 149) = u at *
  generalize (2 : Int) ^ g * 2 ^ g = w at *
  generalize k1 * k4 - k2 * k3 = t at *
  constructor
  · intro h
    have : t < 0 := by
      apply Int.lt_of_not_ge
      intro h'
      have := Int.mul_nonneg (Int.le_of_lt p1) h'
      omega
    exact Int.mul_pos p2 (by omega)
  · intro h
    have : t < 0 := by
      apply Int.lt_of_not_ge
      intro h'
      have := Int.mul_nonneg (Int.le_of_lt p2) h'
      rw [Int.mul_neg] at h
      omega
    have := Int.mul_pos p1 (show 0 < -t by omega)
    rw [Int.mul_neg] at this
    omega

end Hull
end Verif
