import Verif.Lemmas.Box6
/-! # Rotated boxes: the error of a product with a rotation matrix -/

namespace Verif
open F32

namespace F32

theorem mul_val' {x y : F32} (hx : F32.finite x = true) (hy : F32.finite y = true) :
    (x.mul y).isNan = false ∧ (x.mul y).val = if x.neg? != y.neg? then -(magVal (roundMag (x.val.natAbs * y.val.natAbs) (2 ^ 149)) : Int)
      else magVal (roundMag (x.val.natAbs * y.val.natAbs) (2 ^ 149)) := by
  have e : x.mul y = pack (x.neg? != y.neg?) (roundMag (x.val.natAbs * y.val.natAbs) (2 ^ 149)) := by
    unfold mul
    rw [finite_notNan hx, finite_notNan hy, finite_notInf hx, finite_notInf hy, natAbs_val, natAbs_val]
    rfl
  rw [e]
  exact ⟨pack_notNan (roundMag_le _ _), val_pack (roundMag_lt _ _)⟩

theorem mul_sign (x y : F32) : x.val * y.val = if x.neg? != y.neg? then -((x.val.natAbs * y.val.natAbs : Nat) : Int) else ((x.val.natAbs * y.val.natAbs : Nat) : Int) := by
  rw [natAbs_val, natAbs_val, Int.natCast_mul]
  unfold val
  cases x.neg? <;> cases y.neg? <;> simp [Int.neg_mul, Int.mul_neg]

/-- The error of a product, in units of `2^-298`. -/
theorem mul_err {x y : F32} {M : Nat} (hx : F32.finite x = true) (hy : F32.finite y = true) (h1 : x.val.natAbs ≤ 2 * 2 ^ 149) (h2 : y.val.natAbs ≤ M) (hM : M ≤ 2 ^ 272) :
    (x.mul y).isNan = false ∧ 2 ^ 24 * (2 ^ 149 * (x.mul y).val - x.val * y.val).natAbs ≤ 2 ^ 149 * (2 * M + 2 ^ 23) ∧
    2 ^ 24 * (x.mul y).val.natAbs ≤ (2 ^ 24 + 1) * 2 * M + 2 ^ 23 := by
  obtain ⟨n, v⟩ := mul_val' hx hy
  have hp : x.val.natAbs * y.val.natAbs ≤ 2 * 2 ^ 149 * M := Nat.mul_le_mul h1 h2
  have sg := mul_sign x y
  generalize x.val.natAbs * y.val.natAbs = p at *
  generalize x.val * y.val = P at *
  have hr : roundMag p (2 ^ 149) < 255 * 2 ^ 23 := by
    have m := roundMag_mono (p := p) (q := 2 ^ 149) (p' := 2 ^ 273) (q' := 1) (Nat.two_pow_pos _) (by decide) (by
      rw [Nat.mul_one]
      calc p ≤ 2 * 2 ^ 149 * M := hp
        _ ≤ 2 * 2 ^ 149 * 2 ^ 272 := Nat.mul_le_mul_left _ hM
        _ = 2 ^ 273 * 2 ^ 149 := by decide +kernel)
    have e : roundMag (2 ^ 273) 1 < 255 * 2 ^ 23 := by decide +kernel
    omega
  have er := roundMag_err (Nat.two_pow_pos 149) hr
  generalize magVal (roundMag p (2 ^ 149)) = m at *
  refine ⟨n, ?_⟩
  rw [v, sg]
  clear v sg n hr h1 h2 hM
  have hq : (2 : Nat) ^ 149 = 2 ^ 149 := rfl
  have k : 2 ^ 24 * ((2 : Int) ^ 149 * m - p).natAbs ≤ 2 ^ 149 * (2 * M + 2 ^ 23) := by omega
  split
  · have e : ((2 : Int) ^ 149 * -(m : Int) - -(p : Int)).natAbs = ((2 : Int) ^ 149 * m - p).natAbs := by omega
    rw [e]
    exact ⟨k, by omega⟩
  · exact ⟨k, by omega⟩

end F32

/-- A row of a matrix times a vector, as Eigen computes it. -/
def rowTimes (r x : V3f) : F32 := (r.x.mul x.x).add ((r.y.mul x.y).add (r.z.mul x.z))
/-- the exact product, in units of `2^-298` -/
def rowExact (r : V3f) (x : Axis → Int) : Int := r.coord .x * x .x + (r.coord .y * x .y + r.coord .z * x .z)

theorem fl_small {n : Int} (h : n.natAbs ≤ 2 ^ 276) : (fl n).natAbs < top := by
  apply fl_lt_top
  refine Nat.le_trans h ?_
  decide +kernel

theorem sum_err {a b c s t : Int} {M : Nat} (e1 : 2 ^ 24 * (s - (b + c)).natAbs ≤ (b + c).natAbs) (e2 : 2 ^ 24 * (t - (a + s)).natAbs ≤ (a + s).natAbs)
    (h1 : 2 ^ 24 * a.natAbs ≤ (2 ^ 24 + 1) * 2 * M + 2 ^ 23) (h2 : 2 ^ 24 * b.natAbs ≤ (2 ^ 24 + 1) * 2 * M + 2 ^ 23) (h3 : 2 ^ 24 * c.natAbs ≤ (2 ^ 24 + 1) * 2 * M + 2 ^ 23) :
    2 ^ 24 * (t - (a + (b + c))).natAbs ≤ 16 * M + 8 ∧ t.natAbs ≤ 11 * M + 5 := by
  have n1 := Int.natAbs_add_le b c
  have n2 := Int.natAbs_add_le a s
  have n3 : s.natAbs ≤ (s - (b + c)).natAbs + (b + c).natAbs := by have := Int.natAbs_add_le (s - (b + c)) (b + c); rwa [Int.sub_add_cancel] at this
  have n4 : t.natAbs ≤ (t - (a + s)).natAbs + (a + s).natAbs := by have := Int.natAbs_add_le (t - (a + s)) (a + s); rwa [Int.sub_add_cancel] at this
  have n5 : (t - (a + (b + c))).natAbs ≤ (t - (a + s)).natAbs + (s - (b + c)).natAbs := by
    have := Int.natAbs_add_le (t - (a + s)) (s - (b + c))
    rwa [show t - (a + s) + (s - (b + c)) = t - (a + (b + c)) by omega] at this
  generalize (t - (a + (b + c))).natAbs = A at *
  generalize (t - (a + s)).natAbs = B at *
  generalize (s - (b + c)).natAbs = C at *
  generalize (a + s).natAbs = D at *
  generalize (b + c).natAbs = E at *
  generalize a.natAbs = F at *
  generalize b.natAbs = G at *
  generalize c.natAbs = H at *
  generalize s.natAbs = I at *
  generalize t.natAbs = J at *
  omega

theorem rowTimes_err {r x : V3f} {M : Nat} (hr : r.FiniteAt) (hx : x.FiniteAt) (h1 : ∀ i, (r.coord i).natAbs ≤ 2 * 2 ^ 149) (h2 : ∀ i, (x.coord i).natAbs ≤ M) (hM : M ≤ 2 ^ 272) :
    F32.finite (rowTimes r x) = true ∧ 2 ^ 24 * (2 ^ 149 * (rowTimes r x).val - rowExact r x.coord).natAbs ≤ 2 ^ 149 * (22 * M + 2 ^ 25) ∧
    (rowTimes r x).val.natAbs ≤ 11 * M + 5 := by
  have T := fun i => mul_err (hr i) (hx i) (h1 i) (h2 i) hM
  have hM4 : 11 * M + 5 ≤ 2 ^ 276 := by
    have : (2 : Nat) ^ 276 = 2 ^ 4 * 2 ^ 272 := by decide +kernel
    have : (1 : Nat) ≤ 2 ^ 272 := Nat.two_pow_pos _
    omega
  have fT : ∀ i, F32.finite ((r.at i).mul (x.at i)) = true := by
    intro i
    rw [finite_iff_val (T i).1]
    have t := (T i).2.2
    refine Nat.lt_of_le_of_lt (m := 2 ^ 276) ?_ (Nat.pow_lt_pow_right (by decide) (by decide))
    generalize (2 : Nat) ^ 276 = u at *
    omega
  obtain ⟨tx1, tx2, tx3⟩ := T .x
  obtain ⟨ty1, ty2, ty3⟩ := T .y
  obtain ⟨tz1, tz2, tz3⟩ := T .z
  unfold rowTimes rowExact V3f.coord
  simp only [V3f.at] at *
  have fx := fT .x
  have fy := fT .y
  have fz := fT .z
  simp only at fx fy fz
  generalize hX : r.x.mul x.x = X at *
  generalize hY : r.y.mul x.y = Y at *
  generalize hZ : r.z.mul x.z = Z at *
  obtain ⟨s1, s2⟩ := add_val fy fz
  have b1 : (Y.val + Z.val).natAbs ≤ 2 ^ 276 := by
    generalize (2 : Nat) ^ 276 = u at *
    omega
  have e1 := fl_err (fl_small b1)
  have fs : F32.finite (Y.add Z) = true := (finite_iff_val s1).2 (by rw [s2]; exact fl_small b1)
  obtain ⟨u1, u2⟩ := add_val fx fs
  rw [s2] at u2
  have b2 : (X.val + fl (Y.val + Z.val)).natAbs ≤ 2 ^ 276 := by
    generalize (2 : Nat) ^ 276 = u at *
    omega
  have e2 := fl_err (fl_small b2)
  refine ⟨(finite_iff_val u1).2 (by rw [u2]; exact fl_small b2), ?_⟩
  rw [u2]
  generalize fl (Y.val + Z.val) = s at *
  generalize fl (X.val + s) = t at *
  generalize r.x.val * x.x.val = A at *
  generalize r.y.val * x.y.val = B at *
  generalize r.z.val * x.z.val = C at *
  generalize X.val = a at *
  generalize Y.val = b at *
  generalize Z.val = c at *
  clear hM4 b1 b2 s1 s2 u1 u2 fs fx fy fz tx1 ty1 tz1 hX hY hZ T hM h1 h2 hr hx fT
  obtain ⟨hb, hc⟩ := sum_err e1 e2 tx3 ty3 tz3
  refine ⟨?_, hc⟩
  clear tx3 ty3 tz3 e1 e2 hc
  have n1 : (2 ^ 149 * t - (A + (B + C))).natAbs ≤ 2 ^ 149 * (t - (a + (b + c))).natAbs + (2 ^ 149 * a - A).natAbs + (2 ^ 149 * b - B).natAbs + (2 ^ 149 * c - C).natAbs := by
    clear hb tx2 ty2 tz2
    have k : (2 ^ 149 * (t - (a + (b + c)))).natAbs = 2 ^ 149 * (t - (a + (b + c))).natAbs := by rw [Int.natAbs_mul]; rfl
    rw [← k]
    have : 2 ^ 149 * t - (A + (B + C)) = 2 ^ 149 * (t - (a + (b + c))) + (2 ^ 149 * a - A) + (2 ^ 149 * b - B) + (2 ^ 149 * c - C) := by omega
    rw [this]
    refine Nat.le_trans (Int.natAbs_add_le _ _) (Nat.add_le_add_right (Nat.le_trans (Int.natAbs_add_le _ _) (Nat.add_le_add_right (Int.natAbs_add_le _ _) _)) _)
  generalize (2 ^ 149 * t - (A + (B + C))).natAbs = E at *
  generalize (t - (a + (b + c))).natAbs = F at *
  generalize (2 ^ 149 * a - A).natAbs = G at *
  generalize (2 ^ 149 * b - B).natAbs = H at *
  generalize (2 ^ 149 * c - C).natAbs = I at *
  omega

theorem mul_le_two {r d : Int} {M : Nat} (h1 : r.natAbs ≤ 2 * 2 ^ 149) (h2 : 2 ^ 24 * d.natAbs ≤ M) : 2 ^ 24 * (r * d).natAbs ≤ 2 ^ 149 * (2 * M) := by
  rw [Int.natAbs_mul, Nat.mul_left_comm]
  calc r.natAbs * (2 ^ 24 * d.natAbs) ≤ 2 * 2 ^ 149 * M := Nat.mul_le_mul h1 h2
    _ = _ := by omega

/-- The same with a difference of points. -/
theorem rowTimes_sub_err {r p c : V3f} {M : Nat} (hr : r.FiniteAt) (hp : p.FiniteAt) (hc : c.FiniteAt) (h1 : ∀ i, (r.coord i).natAbs ≤ 2 * 2 ^ 149)
    (h2 : ∀ i, (p.coord i - c.coord i).natAbs ≤ M) (hM : M ≤ 2 ^ 271) :
    F32.finite (rowTimes r (p.sub c)) = true ∧
    2 ^ 24 * (2 ^ 149 * (rowTimes r (p.sub c)).val - rowExact r (fun i => p.coord i - c.coord i)).natAbs ≤ 2 ^ 149 * (50 * M + 2 ^ 25) := by
  have hM' : 2 * M ≤ 2 ^ 272 := by
    have : (2 : Nat) ^ 272 = 2 * 2 ^ 271 := by decide +kernel
    omega
  have hM6 : M ≤ 2 ^ 276 := Nat.le_trans hM (Nat.pow_le_pow_right (by decide) (by decide))
  have D : ∀ i, F32.finite ((p.sub c).at i) = true ∧ 2 ^ 24 * ((p.sub c).coord i - (p.coord i - c.coord i)).natAbs ≤ M := by
    intro i
    obtain ⟨s1, s2⟩ := sub_val (hp i) (hc i)
    have e : (p.sub c).coord i = fl (p.coord i - c.coord i) := by unfold V3f.coord; rw [V3f.at_sub]; exact s2
    have hs := fl_small (Nat.le_trans (h2 i) hM6)
    refine ⟨by rw [V3f.at_sub]; exact (finite_iff_val s1).2 (by rw [s2]; exact hs), ?_⟩
    rw [e]
    exact Nat.le_trans (fl_err hs) (h2 i)
  obtain ⟨f, e, _⟩ := rowTimes_err (M := 2 * M) hr (fun i => (D i).1) h1 (fun i => by have := (D i).2; have := h2 i; omega) hM'
  refine ⟨f, ?_⟩
  have m := fun i => mul_le_two (h1 i) (D i).2
  have mx := m .x
  have my := m .y
  have mz := m .z
  rw [Int.mul_sub] at mx my mz
  unfold rowExact at *
  generalize (p.sub c).coord = v at *
  generalize r.coord .x * v .x = A at *
  generalize r.coord .y * v .y = B at *
  generalize r.coord .z * v .z = C at *
  generalize r.coord .x * (p.coord .x - c.coord .x) = A' at *
  generalize r.coord .y * (p.coord .y - c.coord .y) = B' at *
  generalize r.coord .z * (p.coord .z - c.coord .z) = C' at *
  clear m D hM hM' hM6 h1 h2
  omega

end Verif
