import Verif.Lemmas.Box3
/-! # Boxes on a grid -/

namespace Verif
open F32

/-- A coordinate on a grid, in cells of half the spacing. -/
theorem V3f.OnGrid.cell {g : Nat} {a : V3f} (h : a.OnGrid g) (i : Axis) : ∃ k : Int, a.coord i = 2 ^ g * (2 * k) ∧ k.natAbs < 2 ^ 21 := by
  obtain ⟨⟨k, hk⟩, hl⟩ := h i
  refine ⟨k, by rw [hk, Int.pow_succ, Int.mul_assoc], ?_⟩
  rw [hk, Int.natAbs_mul, Int.natAbs_pow, Nat.mul_comm] at hl
  exact Nat.lt_of_mul_lt_mul_right hl

theorem fl_cells {g : Nat} (hg : g ≤ 253) (k : Int) (hk : k.natAbs < 2 ^ 24) : fl (2 ^ g * k) = 2 ^ g * k := by
  apply fl_grid g hg (Int.dvd_mul_right _ _)
  rw [Int.natAbs_mul, Int.natAbs_pow, Nat.mul_comm]
  exact Nat.mul_lt_mul_of_pos_right hk (Nat.two_pow_pos _)

theorem pow_even {g : Nat} (h : 1 ≤ g) (k : Int) : (2 ^ g * k) % 2 = 0 := by
  obtain ⟨n, rfl⟩ : ∃ n, g = n + 1 := ⟨g - 1, by omega⟩
  rw [Int.pow_succ, Int.mul_comm (2 ^ n) 2, Int.mul_assoc]
  omega

theorem cells_lt {g : Nat} (hg : g ≤ 252) (k : Int) (hk : k.natAbs < 2 ^ 24) : (2 ^ g * k).natAbs < 2 ^ 276 := by
  rw [Int.natAbs_mul, Int.natAbs_pow]
  calc _ < 2 ^ g * 2 ^ 24 := Nat.mul_lt_mul_of_pos_left hk (Nat.two_pow_pos _)
    _ = 2 ^ (g + 24) := (Nat.pow_add ..).symm
    _ ≤ 2 ^ 276 := Nat.pow_le_pow_right (by decide) (by omega)

theorem cell_pos {g : Nat} : (0 : Int) < 2 ^ g := Int.pow_pos (by decide)
theorem cell_le {g : Nat} {a b : Int} : (2 : Int) ^ g * a ≤ 2 ^ g * b ↔ a ≤ b := Int.mul_le_mul_left cell_pos
theorem cell_lt {g : Nat} {a b : Int} : (2 : Int) ^ g * a < 2 ^ g * b ↔ a < b := Int.mul_lt_mul_left cell_pos
theorem cell_min {g : Nat} {a b : Int} : min ((2 : Int) ^ g * a) (2 ^ g * b) = 2 ^ g * min a b := by
  rcases Int.le_total a b with h | h
  · rw [Int.min_eq_left h, Int.min_eq_left (cell_le.2 h)]
  · rw [Int.min_eq_right h, Int.min_eq_right (cell_le.2 h)]
theorem cell_max {g : Nat} {a b : Int} : max ((2 : Int) ^ g * a) (2 ^ g * b) = 2 ^ g * max a b := by
  rcases Int.le_total a b with h | h
  · rw [Int.max_eq_right h, Int.max_eq_right (cell_le.2 h)]
  · rw [Int.max_eq_left h, Int.max_eq_left (cell_le.2 h)]

/-- The numbers of a box on a grid, in cells of half the spacing. -/
structure Cells (b : BBox) (g : Nat) (i : Axis) (c h : Int) : Prop where
  center : b.center.coord i = 2 ^ g * (2 * c)
  dims : b.dims.coord i = 2 ^ g * (2 * h)
  half : (b.dims.at i).half.val = 2 ^ g * h
  min : b.minCorner.coord i = 2 ^ g * (2 * c - h)
  max : b.maxCorner.coord i = 2 ^ g * (2 * c + h)
  bc : c.natAbs < 2 ^ 21
  bh : 0 < h ∧ h < 2 ^ 21

theorem BBox.Proper.cells {b : BBox} {g : Nat} (hb : b.Proper) (hg : 1 ≤ g ∧ g ≤ 252) (h1 : b.center.OnGrid g) (h2 : b.dims.OnGrid g) (i : Axis) :
    ∃ c h, Cells b g i c h := by
  obtain ⟨c, hc, bc⟩ := h1.cell i
  obtain ⟨h, hh, bh⟩ := h2.cell i
  have hp := hb.positive i
  rw [hh] at hp
  have hp' : 0 < h := by
    have := (cell_lt (g := g) (a := 0) (b := 2 * h)).1 (by rw [Int.mul_zero]; exact hp); omega
  have hhalf : (b.dims.at i).half.val = 2 ^ g * h := by
    have e : (b.dims.at i).val = 2 ^ g * (2 * h) := hh
    have := half_even (hb.dims i) (by rw [e]; exact pow_even hg.1 _)
    rw [e, Int.mul_left_comm] at this
    omega
  refine ⟨c, h, hc, hh, hhalf, ?_, ?_, bc, hp', by omega⟩
  · rw [(hb.minCorner_val i).2, hc, hhalf, ← Int.mul_sub, fl_cells (by omega) _ (by omega)]
  · rw [(hb.maxCorner_val i).2, hc, hhalf, ← Int.mul_add, fl_cells (by omega) _ (by omega)]

namespace F32
/-! ## Products and quotients of positive numbers -/

theorem neg?_of_val {x : F32} (h : 0 < x.val) : x.neg? = false := neg?_of_pos h

theorem mul_of_nonneg {x y : F32} (hx : F32.finite x = true) (hy : F32.finite y = true) (sx : x.neg? = false) (sy : y.neg? = false) :
    (x.mul y).isNan = false ∧ (x.mul y).neg? = false ∧ (x.mul y).val = magVal (roundMag (x.val.natAbs * y.val.natAbs) (2 ^ 149)) := by
  have e : x.mul y = pack false (roundMag (x.val.natAbs * y.val.natAbs) (2 ^ 149)) := by
    unfold mul
    rw [finite_notNan hx, finite_notNan hy, finite_notInf hx, finite_notInf hy, sx, sy, natAbs_val, natAbs_val]
    rfl
  rw [e]
  exact ⟨pack_notNan (roundMag_le _ _), neg?_pack (roundMag_lt _ _), by rw [val_pack (roundMag_lt _ _)]; rfl⟩

/-- Products grow with their factors. -/
theorem mul_mono {x y x' y' : F32} (hx : F32.finite x = true) (hy : F32.finite y = true) (hx' : F32.finite x' = true) (hy' : F32.finite y' = true)
    (sx : x.neg? = false) (sy : y.neg? = false) (sx' : x'.neg? = false) (sy' : y'.neg? = false) (h1 : x.val ≤ x'.val) (h2 : y.val ≤ y'.val) :
    (x.mul y).val ≤ (x'.mul y').val := by
  rw [(mul_of_nonneg hx hy sx sy).2.2, (mul_of_nonneg hx' hy' sx' sy').2.2]
  have a1 := val_nonneg sx
  have a2 := val_nonneg sy
  have := magVal_le (roundMag_mono (p := x.val.natAbs * y.val.natAbs) (p' := x'.val.natAbs * y'.val.natAbs) (Nat.two_pow_pos 149) (Nat.two_pow_pos 149)
    (Nat.mul_le_mul_right _ (Nat.mul_le_mul (by omega) (by omega))))
  omega

theorem roundMag_pow {n : Nat} (h : n ≤ 276) : magVal (roundMag (2 ^ n) 1) = 2 ^ n := by
  have h1 : fl ((2 : Int) ^ n) = 2 ^ n := by
    by_cases hn : n ≤ 253
    · have := fl_cells (g := n) hn 1 (by decide)
      rwa [Int.mul_one] at this
    · have := fl_cells (g := 253) (Nat.le_refl _) (2 ^ (n - 253)) (by
        rw [Int.natAbs_pow]
        exact Nat.pow_lt_pow_right (by decide) (by omega))
      rwa [← Int.pow_add, show 253 + (n - 253) = n by omega] at this
  have h2 := fl_ofNat (2 ^ n)
  have e : ((2 ^ n : Nat) : Int) = 2 ^ n := by simp
  rw [e, h1] at h2
  have h3 : ((2 ^ n : Nat) : Int) = (magVal (roundMag (2 ^ n) 1) : Int) := by rw [e]; exact h2
  exact (Int.ofNat_inj.1 h3).symm

/-- The order of magnitude of a product. -/
theorem mul_ge {x y : F32} {a b : Nat} (hx : F32.finite x = true) (hy : F32.finite y = true) (h1 : (2 : Int) ^ a ≤ x.val) (h2 : (2 : Int) ^ b ≤ y.val)
    (h3 : 149 ≤ a + b) (h4 : a + b ≤ 425) : (2 : Int) ^ (a + b - 149) ≤ (x.mul y).val := by
  have p1 : 0 < x.val := Int.lt_of_lt_of_le cell_pos h1
  have p2 : 0 < y.val := Int.lt_of_lt_of_le cell_pos h2
  rw [(mul_of_nonneg hx hy (neg?_of_pos p1) (neg?_of_pos p2)).2.2]
  have q1 : 2 ^ a ≤ x.val.natAbs := by
    have e : ((2 ^ a : Nat) : Int) = 2 ^ a := by simp
    omega
  have q2 : 2 ^ b ≤ y.val.natAbs := by
    have e : ((2 ^ b : Nat) : Int) = 2 ^ b := by simp
    omega
  have := magVal_le (roundMag_mono (p := 2 ^ (a + b - 149)) (q := 1) (p' := x.val.natAbs * y.val.natAbs) (q' := 2 ^ 149) (by decide) (Nat.two_pow_pos 149) (by
    rw [← Nat.pow_add, Nat.mul_one, show a + b - 149 + 149 = a + b by omega, Nat.pow_add]
    exact Nat.mul_le_mul q1 q2))
  rw [roundMag_pow (by omega)] at this
  have e : ((2 ^ (a + b - 149) : Nat) : Int) = 2 ^ (a + b - 149) := by simp
  rw [← e]
  exact Int.ofNat_le.2 this

theorem mul_le {x y : F32} {a b : Nat} (hx : F32.finite x = true) (hy : F32.finite y = true) (sx : x.neg? = false) (sy : y.neg? = false)
    (h1 : x.val ≤ (2 : Int) ^ a) (h2 : y.val ≤ (2 : Int) ^ b) (h3 : 149 ≤ a + b) (h4 : a + b ≤ 425) :
    (x.mul y).val ≤ (2 : Int) ^ (a + b - 149) ∧ F32.finite (x.mul y) = true := by
  obtain ⟨m1, m2, m3⟩ := mul_of_nonneg hx hy sx sy
  have p1 := val_nonneg sx
  have p2 := val_nonneg sy
  have q1 : x.val.natAbs ≤ 2 ^ a := by
    have e : ((2 ^ a : Nat) : Int) = 2 ^ a := by simp
    omega
  have q2 : y.val.natAbs ≤ 2 ^ b := by
    have e : ((2 ^ b : Nat) : Int) = 2 ^ b := by simp
    omega
  have := magVal_le (roundMag_mono (p' := 2 ^ (a + b - 149)) (q' := 1) (p := x.val.natAbs * y.val.natAbs) (q := 2 ^ 149) (Nat.two_pow_pos 149) (by decide) (by
    rw [← Nat.pow_add, Nat.mul_one, show a + b - 149 + 149 = a + b by omega, Nat.pow_add]
    exact Nat.mul_le_mul q1 q2))
  rw [roundMag_pow (by omega)] at this
  have e : ((2 ^ (a + b - 149) : Nat) : Int) = 2 ^ (a + b - 149) := by simp
  have hv : (x.mul y).val ≤ (2 : Int) ^ (a + b - 149) := by rw [m3, ← e]; exact Int.ofNat_le.2 this
  refine ⟨hv, ?_⟩
  rw [finite_iff_val m1, m3, Int.natAbs_natCast]
  apply Nat.lt_of_le_of_lt this
  unfold top
  exact Nat.pow_lt_pow_right (by decide) (by omega)

/-- The quotient of nonnegative numbers, the divisor positive. -/
theorem div_of_nonneg {x y : F32} (hx : F32.finite x = true) (hy : F32.finite y = true) (sx : x.neg? = false) (py : 0 < y.val) :
    (x.div y).isNan = false ∧ (x.div y).val = magVal (roundMag (x.val.natAbs * 2 ^ 149) y.val.natAbs) := by
  have sy := neg?_of_pos py
  have hm : y.magBits ≠ 0 := by
    intro h
    have := (val_of_mag h).2.2.1
    omega
  have e : x.div y = pack false (roundMag (x.val.natAbs * 2 ^ 149) y.val.natAbs) := by
    unfold div
    rw [finite_notNan hx, finite_notNan hy, finite_notInf hx, finite_notInf hy, sx, sy, natAbs_val, natAbs_val, if_neg (by simp), if_neg (by simp), if_neg (by simp), if_neg hm]
    rfl
  rw [e]
  exact ⟨pack_notNan (roundMag_le _ _), by rw [val_pack (roundMag_lt _ _)]; rfl⟩

theorem one_val : one.val = 2 ^ 149 := by decide +kernel

theorem div_le_one {x y : F32} (hx : F32.finite x = true) (hy : F32.finite y = true) (sx : x.neg? = false) (py : 0 < y.val) (h : x.val ≤ y.val) :
    (x.div y).val ≤ one.val := by
  rw [(div_of_nonneg hx hy sx py).2, one_val]
  have p1 := val_nonneg sx
  have := magVal_le (roundMag_mono (p := x.val.natAbs * 2 ^ 149) (q := y.val.natAbs) (p' := 2 ^ 149) (q' := 1) (by omega) (by decide) (by
    rw [Nat.mul_one, Nat.mul_comm]; exact Nat.mul_le_mul_left _ (by omega)))
  rw [roundMag_pow (by omega)] at this
  exact Int.ofNat_le.2 this

theorem div_eq_one {x : F32} (hx : F32.finite x = true) (px : 0 < x.val) : (x.div x).val = one.val := by
  rw [(div_of_nonneg hx hx (neg?_of_pos px) px).2, one_val]
  have : roundMag (x.val.natAbs * 2 ^ 149) x.val.natAbs = roundMag (2 ^ 149) 1 :=
    roundMag_congr (by omega) (by decide) (by rw [Nat.mul_one, Nat.mul_comm])
  rw [this, roundMag_pow (by omega)]
  rfl

theorem div_pos {x y : F32} {a b : Nat} (hx : F32.finite x = true) (hy : F32.finite y = true) (h1 : (2 : Int) ^ a ≤ x.val) (py : 0 < y.val)
    (h2 : y.val ≤ (2 : Int) ^ b) (h : b ≤ a + 149) : 0 < (x.div y).val := by
  have px : 0 < x.val := Int.lt_of_lt_of_le cell_pos h1
  rw [(div_of_nonneg hx hy (neg?_of_pos px) py).2]
  have q1 : 2 ^ a ≤ x.val.natAbs := by
    have e : ((2 ^ a : Nat) : Int) = 2 ^ a := by simp
    omega
  have q2 : y.val.natAbs ≤ 2 ^ b := by
    have e : ((2 ^ b : Nat) : Int) = 2 ^ b := by simp
    omega
  have := magVal_le (roundMag_mono (p := 1) (q := 1) (p' := x.val.natAbs * 2 ^ 149) (q' := y.val.natAbs) (by decide) (by omega) (by
    rw [Nat.one_mul, Nat.mul_one]
    calc y.val.natAbs ≤ 2 ^ b := q2
      _ ≤ 2 ^ (a + 149) := Nat.pow_le_pow_right (by decide) h
      _ = 2 ^ a * 2 ^ 149 := Nat.pow_add ..
      _ ≤ _ := Nat.mul_le_mul_right _ q1))
  have e : magVal (roundMag 1 1) = 1 := by decide +kernel
  rw [e] at this
  omega

end F32
end Verif
