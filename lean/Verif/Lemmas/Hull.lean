import Verif.Spec.Hull
import Verif.Lemmas.Box7
/-! # Square roots, angles and the order of the points -/

namespace Verif
namespace F32

/-! ## The square root -/

theorem isqrtGo_spec (n : Nat) : ∀ i r, r * r ≤ n → n < (r + 2 ^ i) * (r + 2 ^ i) →
    isqrtGo n i r * isqrtGo n i r ≤ n ∧ n < (isqrtGo n i r + 1) * (isqrtGo n i r + 1) := by
  intro i
  induction i with
  | zero => intro r h1 h2; exact ⟨h1, h2⟩
  | succ i ih =>
    intro r h1 h2
    unfold isqrtGo
    split
    · rename_i h
      refine ih _ h ?_
      have : r + 2 ^ i + 2 ^ i = r + 2 ^ (i + 1) := by rw [Nat.pow_succ]; omega
      rw [this]; exact h2
    · rename_i h
      exact ih _ h1 (Nat.lt_of_not_le h)

theorem isqrt_spec (n : Nat) : isqrt n * isqrt n ≤ n ∧ n < (isqrt n + 1) * (isqrt n + 1) := by
  unfold isqrt
  refine isqrtGo_spec n _ 0 (by omega) ?_
  rw [Nat.zero_add, ← Nat.pow_add]
  refine Nat.lt_of_lt_of_le (Nat.lt_log2_self (n := n)) (Nat.pow_le_pow_right (by decide) (by omega))

theorem isqrt_le {n r : Nat} (h : r * r ≤ n) : r ≤ isqrt n := by
  apply Nat.le_of_lt_succ
  apply Nat.lt_of_not_le
  intro h'
  have h1 : (isqrt n + 1) * (isqrt n + 1) ≤ r * r := Nat.mul_le_mul h' h'
  have := (isqrt_spec n).2
  omega

/-- what is rounded -/
def rootNum (v : Nat) : Nat := let n := v * 2 ^ 149; let r := isqrt n; if r * r = n then 2 * r else 2 * r + 1

theorem sqrt_pos {z : F32} (hz : F32.finite z = true) (pz : 0 < z.val) :
    z.sqrt = pack false (roundMag (rootNum z.val.natAbs) 2) := by
  have hm : z.magBits ≠ 0 := by
    intro h
    have := (val_of_mag h).2.2.1
    omega
  unfold sqrt
  rw [if_neg (by rw [finite_notNan hz]; simp), if_neg hm, if_neg (by rw [neg?_of_pos pz]; simp), if_neg (by rw [finite_notInf hz]; simp), natAbs_val]
  rfl

theorem sqrt_ge {z : F32} {k : Nat} (hk : k ≤ 276) (hz : F32.finite z = true) (pz : 0 < z.val) (h : 2 ^ k * 2 ^ k ≤ z.val.natAbs * 2 ^ 149) :
    z.sqrt.isNan = false ∧ z.sqrt.neg? = false ∧ (2 : Int) ^ k ≤ z.sqrt.val := by
  rw [sqrt_pos hz pz]
  refine ⟨pack_notNan (roundMag_le _ _), neg?_pack (roundMag_lt _ _), ?_⟩
  rw [val_pack (roundMag_lt _ _)]
  simp only [Bool.false_eq_true, if_false]
  have h1 := isqrt_le h
  have h2 : 2 * 2 ^ k ≤ rootNum z.val.natAbs := by
    unfold rootNum; dsimp only; split <;> omega
  have h3 : roundMag (2 ^ k) 1 ≤ roundMag (rootNum z.val.natAbs) 2 := roundMag_mono (by decide) (by decide) (by omega)
  have h4 := magVal_le h3
  rw [roundMag_pow hk] at h4
  exact_mod_cast h4

/-! ## Numbers that are far from zero are coarse -/

theorem fl_coarse {n : Int} {g : Nat} (hg : g ≤ 277) (h : 2 ^ (g + 23) ≤ n.natAbs) : (2 : Int) ^ g ∣ fl n := by
  have key : 2 ^ g ∣ (fl n).natAbs := by
    rw [natAbs_fl, roundMag_eq]
    rcases Nat.le_total (rawMag n.natAbs 1) (255 * 2 ^ 23) with h1 | h1
    · rw [Nat.min_eq_left h1]
      unfold rawMag
      have hr := nearest_range (p := n.natAbs) (q := 1) (by decide)
      have hne : n.natAbs ≠ 0 := by have := Nat.two_pow_pos (g + 23); omega
      have hs : g ≤ shiftOf n.natAbs 1 := by
        unfold shiftOf
        rw [Nat.div_one]
        have := (Nat.le_log2 hne).2 h
        omega
      rcases Nat.eq_zero_or_pos g with rfl | hp
      · simp
      · rw [magVal_shift (hr.2 (by omega)) hr.1]
        exact Nat.dvd_trans (Nat.pow_dvd_pow 2 hs) (Nat.dvd_mul_left _ _)
    · rw [Nat.min_eq_right h1, magVal_inf]
      exact Nat.pow_dvd_pow 2 hg
  have : ((2 ^ g : Nat) : Int) ∣ fl n := Int.ofNat_dvd_left.2 key
  rwa [Int.natCast_pow] at this

/-- `1 - x` is a multiple of `2^-24`. -/
theorem one_sub_grid {x : F32} (hx : F32.finite x = true) (hb : x.val.natAbs ≤ 2 ^ 275) :
    F32.finite (one.sub x) = true ∧ (2 : Int) ^ 125 ∣ (one.sub x).val := by
  have h1 : F32.finite one = true := by decide +kernel
  obtain ⟨n1, v1⟩ := sub_val h1 hx
  have ho : one.val = 2 ^ 149 := by decide +kernel
  rw [ho] at v1
  refine ⟨?_, ?_⟩
  · rw [finite_iff_val n1, v1]
    apply fl_small
    have e : (2 : Nat) ^ 276 = 2 * 2 ^ 275 := by decide
    have e2 : (2 : Nat) ^ 149 ≤ 2 ^ 275 := by decide
    have e3 : ((2 : Int) ^ 149).natAbs = 2 ^ 149 := by decide
    generalize (2 : Int) ^ 149 = u at *
    generalize (2 : Nat) ^ 149 = w at *
    generalize (2 : Nat) ^ 275 = T at *
    omega
  · rw [v1]
    by_cases h : 2 ^ (125 + 23) ≤ ((2 : Int) ^ 149 - x.val).natAbs
    · exact fl_coarse (by decide) h
    · have big : 2 ^ (125 + 23) ≤ x.val.natAbs := by
        have e3 : (2 : Int) ^ 149 = 2 * ((2 ^ (125 + 23) : Nat) : Int) := by decide
        rw [e3] at h
        generalize (2 : Nat) ^ (125 + 23) = w at *
        omega
      have d1 : (2 : Int) ^ 125 ∣ x.val := by
        have := fl_coarse (g := 125) (by decide) big
        rwa [fl_val (finite_notNan hx)] at this
      have d : (2 : Int) ^ 125 ∣ 2 ^ 149 - x.val := Int.dvd_sub (by rw [show (2 : Int) ^ 149 = 2 ^ 125 * 2 ^ 24 by rw [← Int.pow_add]]; exact Int.dvd_mul_right _ _) d1
      rw [fl_grid 125 (by decide) d]
      · exact d
      · have e : 2 ^ 24 * 2 ^ 125 = 2 * 2 ^ (125 + 23) := by decide
        rw [e]
        generalize (2 : Nat) ^ (125 + 23) = w at *
        omega

/-! ## Normalising -/

theorem mul_self_val {x : F32} (hx : F32.finite x = true) : (x.mul x).isNan = false ∧ (x.mul x).neg? = false ∧
    (x.mul x).val = magVal (roundMag (x.val.natAbs * x.val.natAbs) (2 ^ 149)) := by
  have e : x.mul x = pack false (roundMag (x.val.natAbs * x.val.natAbs) (2 ^ 149)) := by
    unfold mul
    rw [finite_notNan hx, finite_notInf hx, natAbs_val, bne_self_eq_false]
    rfl
  rw [e]
  exact ⟨pack_notNan (roundMag_le _ _), neg?_pack (roundMag_lt _ _), by rw [val_pack (roundMag_lt _ _)]; rfl⟩

theorem div_val' {x y : F32} (hx : F32.finite x = true) (hy : F32.finite y = true) (py : 0 < y.val) :
    (x.div y).isNan = false ∧ (x.div y).val.natAbs = magVal (roundMag (x.val.natAbs * 2 ^ 149) y.val.natAbs) := by
  have hm : y.magBits ≠ 0 := by
    intro h
    have := (val_of_mag h).2.2.1
    omega
  have e : x.div y = pack (x.neg? != y.neg?) (roundMag (x.val.natAbs * 2 ^ 149) y.val.natAbs) := by
    unfold div
    simp only [finite_notNan hx, finite_notNan hy, finite_notInf hx, finite_notInf hy, Bool.or_self, Bool.false_eq_true, if_false, if_neg hm, natAbs_val]
  rw [e]
  have h1 := roundMag_le (x.val.natAbs * 2 ^ 149) y.val.natAbs
  generalize roundMag (x.val.natAbs * 2 ^ 149) y.val.natAbs = b at h1
  refine ⟨pack_notNan h1, ?_⟩
  rw [val_pack (by omega)]
  split <;> omega

end F32

open F32

/-- The squared norm is a number, possibly infinite, at least the square of a coordinate. -/
theorem V2f.dot_self {a : V2f} (hx : F32.finite a.x = true) (hy : F32.finite a.y = true) :
    (a.dot a).isNan = false ∧ (F32.finite (a.dot a) = true → F32.finite (a.x.mul a.x) = true ∧ F32.finite (a.y.mul a.y) = true ∧
      (a.dot a).val = fl ((a.x.mul a.x).val + (a.y.mul a.y).val)) := by
  obtain ⟨n1, s1, v1⟩ := mul_self_val hx
  obtain ⟨n2, s2, v2⟩ := mul_self_val hy
  unfold V2f.dot
  by_cases i1 : (a.x.mul a.x).isInf = true
  · have e : (a.x.mul a.x).add (a.y.mul a.y) = a.x.mul a.x := by
      unfold F32.add
      rw [n1, n2, s1, s2, if_neg (by simp), if_pos i1, if_neg (by simp)]
    rw [e]
    exact ⟨n1, fun h => absurd i1 (by rw [finite_notInf h]; simp)⟩
  · by_cases i2 : (a.y.mul a.y).isInf = true
    · have e : (a.x.mul a.x).add (a.y.mul a.y) = a.y.mul a.y := by
        unfold F32.add
        rw [n1, n2, if_neg (by simp), if_neg i1, if_pos i2]
      rw [e]
      exact ⟨n2, fun h => absurd i2 (by rw [finite_notInf h]; simp)⟩
    · have f1 := finite_of n1 (by simpa using i1)
      have f2 := finite_of n2 (by simpa using i2)
      obtain ⟨h1, h2⟩ := add_val f1 f2
      exact ⟨h1, fun _ => ⟨f1, f2, h2⟩⟩

theorem div_inf {x z : F32} (hx : F32.finite x = true) (hn : z.isNan = false) (hi : z.isInf = true) : F32.finite (x.div z) = true ∧ (x.div z).val = 0 := by
  have e : x.div z = pack (x.neg? != z.neg?) 0 := by
    unfold F32.div
    rw [finite_notNan hx, hn, finite_notInf hx, hi, if_neg (by simp), if_neg (by simp), if_pos rfl]
  rw [e]
  refine ⟨by rw [finite_mag, magBits_pack (by decide)]; decide, ?_⟩
  rw [val_pack (by decide)]
  split <;> rfl

theorem square_ge {x m : F32} (m3 : m.val = magVal (roundMag (x.val.natAbs * x.val.natAbs) (2 ^ 149))) (hs : 2 ^ 149 ≤ x.val.natAbs) : ((2 ^ 149 : Nat) : Int) ≤ m.val := by
  rw [m3]
  apply Int.ofNat_le.2
  refine Nat.le_trans (Nat.le_of_eq (roundMag_pow (n := 149) (by decide)).symm) (magVal_le (roundMag_mono (by decide) (Nat.two_pow_pos _) ?_))
  rw [Nat.mul_one]
  exact Nat.mul_le_mul hs hs

/-- A coordinate of a normalised vector is finite: it is the coordinate itself or at most `2^75` (in truth about 1). -/
theorem V2f.normalized_x {a : V2f} (hx : F32.finite a.x = true) (hy : F32.finite a.y = true) (hb : a.x.val.natAbs ≤ 2 ^ 275) :
    F32.finite a.normalized.x = true ∧ a.normalized.x.val.natAbs ≤ 2 ^ 275 := by
  obtain ⟨nz, hz⟩ := dot_self hx hy
  have z0 : isNan (0 : F32) = false := by decide +kernel
  have z1 : val (0 : F32) = 0 := by decide +kernel
  unfold V2f.normalized
  dsimp only
  by_cases hp : F32.lt 0 (a.dot a) = true
  · rw [if_pos hp]
    have pz : 0 < (a.dot a).val := by have := (lt_iff z0 nz).1 hp; rwa [z1] at this
    dsimp only
    by_cases hi : (a.dot a).isInf = true
    · have e : (a.dot a).sqrt = a.dot a := by
        unfold F32.sqrt
        rw [nz, neg?_of_pos pz, hi]
        simp
      rw [e]
      obtain ⟨h1, h2⟩ := div_inf hx nz hi
      rw [h2]
      exact ⟨h1, by decide⟩
    · have fz := finite_of nz (by simpa using hi)
      obtain ⟨f1, f2, ez⟩ := hz fz
      obtain ⟨m1, m2, m3⟩ := mul_self_val hx
      have p2 := val_nonneg (mul_self_val hy).2.1
      have le1 : (a.x.mul a.x).val ≤ (a.dot a).val := by
        rw [ez]
        have := fl_mono (show (a.x.mul a.x).val ≤ (a.x.mul a.x).val + (a.y.mul a.y).val by omega)
        rwa [fl_val m1] at this
      -- a bound for the quotient
      have quot : ∀ k, k ≤ 276 → 2 ^ k * 2 ^ k ≤ (a.dot a).val.natAbs * 2 ^ 149 → ∀ B, B ≤ 255 * 2 ^ 23 → a.x.val.natAbs * 2 ^ 149 ≤ magVal B * 2 ^ k →
          (a.x.div (a.dot a).sqrt).isNan = false ∧ (a.x.div (a.dot a).sqrt).val.natAbs ≤ magVal B := by
        intro k hk h B hB hle
        obtain ⟨q1, q2, q3⟩ := sqrt_ge hk fz pz h
        have ps : 0 < (a.dot a).sqrt.val := Int.lt_of_lt_of_le cell_pos q3
        by_cases hs : F32.finite (a.dot a).sqrt = true
        · obtain ⟨d1, d2⟩ := div_val' hx hs ps
          refine ⟨d1, ?_⟩
          rw [d2]
          apply magVal_le
          have : roundMag (a.x.val.natAbs * 2 ^ 149) (a.dot a).sqrt.val.natAbs ≤ roundMag (magVal B) 1 := by
            apply roundMag_mono (by omega) (by decide)
            rw [Nat.mul_one]
            refine Nat.le_trans hle (Nat.mul_le_mul_left _ ?_)
            have e : (((2 : Nat) ^ k : Nat) : Int) = (2 : Int) ^ k := by rw [Int.natCast_pow]; rfl
            generalize (2 : Nat) ^ k = u at *
            omega
          rwa [roundMag_magVal hB] at this
        · have hi' : (a.dot a).sqrt.isInf = true := by
            by_cases h : (a.dot a).sqrt.isInf = true
            · exact h
            · exact absurd (finite_of q1 (by simpa using h)) hs
          obtain ⟨h1, h2⟩ := div_inf hx q1 hi'
          rw [h2]
          exact ⟨finite_notNan h1, by simp⟩
      have fin : (a.x.div (a.dot a).sqrt).isNan = false ∧ (a.x.div (a.dot a).sqrt).val.natAbs ≤ 2 ^ 275 := by
        obtain ⟨B, hB, eB⟩ : ∃ B, B ≤ 255 * 2 ^ 23 ∧ magVal B = 2 ^ 275 := ⟨roundMag (2 ^ 275) 1, roundMag_le _ _, roundMag_pow (by decide)⟩
        rw [← eB]
        by_cases hs : a.x.val.natAbs ≤ 2 ^ 149
        · refine quot 74 (by decide) ?_ B hB ?_
          · have : 1 ≤ (a.dot a).val.natAbs := by omega
            calc 2 ^ 74 * 2 ^ 74 ≤ 1 * 2 ^ 149 := by decide
              _ ≤ _ := Nat.mul_le_mul_right _ this
          · rw [eB]
            calc a.x.val.natAbs * 2 ^ 149 ≤ 2 ^ 149 * 2 ^ 149 := Nat.mul_le_mul_right _ hs
              _ ≤ _ := by decide
        · refine quot 149 (by decide) ?_ B hB ?_
          · apply Nat.mul_le_mul_right
            have e := square_ge m3 (Nat.le_of_lt (Nat.lt_of_not_le hs))
            generalize (2 : Nat) ^ 149 = u at *
            omega
          · rw [eB]
            exact Nat.mul_le_mul_right _ hb
      refine ⟨?_, fin.2⟩
      rw [finite_iff_val fin.1]
      exact Nat.lt_of_le_of_lt fin.2 (by decide)
  · rw [if_neg hp]
    exact ⟨hx, hb⟩

namespace Hull

theorem pt_mem {ps : List V3f} {i : Nat} (h : i < ps.length) : pt ps i ∈ ps := by
  unfold pt; rw [List.getD_eq_getElem?_getD, List.getElem?_eq_getElem h]; exact List.getElem_mem h

theorem diff_ok {x y : F32} (hx : F32.finite x = true) (hy : F32.finite y = true) (bx : x.val.natAbs ≤ 2 ^ 274) (by' : y.val.natAbs ≤ 2 ^ 274) :
    F32.finite (x.sub y) = true ∧ (x.sub y).val.natAbs ≤ 2 ^ 275 := by
  obtain ⟨n, v⟩ := sub_val hx hy
  have hs : (x.val - y.val).natAbs ≤ 2 ^ 275 := by
    have e : (2 : Nat) ^ 275 = 2 * 2 ^ 274 := by decide
    generalize (2 : Nat) ^ 274 = u at *
    omega
  refine ⟨by rw [finite_iff_val n, v]; exact fl_small (Nat.le_trans hs (by decide)), ?_⟩
  rw [v, natAbs_fl, ← roundMag_pow (n := 275) (by decide)]
  exact magVal_le (roundMag_mono (by decide) (by decide) (by omega))

theorem head2_diff {p q : V3f} (hp : p.FiniteAt) (hq : q.FiniteAt) (bp : ∀ i, (p.coord i).natAbs ≤ 2 ^ 274) (bq : ∀ i, (q.coord i).natAbs ≤ 2 ^ 274) :
    (F32.finite (p.head2.sub q.head2).x = true ∧ (p.head2.sub q.head2).x.val.natAbs ≤ 2 ^ 275) ∧
    (F32.finite (p.head2.sub q.head2).y = true ∧ (p.head2.sub q.head2).y.val.natAbs ≤ 2 ^ 275) :=
  ⟨diff_ok (hp .x) (hq .x) (bp .x) (bq .x), diff_ok (hp .y) (hq .y) (bp .y) (bq .y)⟩

theorem getAngle_ok {p q : V3f} (hp : p.FiniteAt) (hq : q.FiniteAt) (bp : ∀ i, (p.coord i).natAbs ≤ 2 ^ 274) (bq : ∀ i, (q.coord i).natAbs ≤ 2 ^ 274) :
    F32.finite (getAngle p q) = true ∧ (2 : Int) ^ 125 ∣ (getAngle p q).val := by
  obtain ⟨⟨h1, h2⟩, h3, _⟩ := head2_diff hp hq bp bq
  obtain ⟨n1, n2⟩ := V2f.normalized_x h1 h3 h2
  exact one_sub_grid n1 n2

theorem getDist_ok {p q : V3f} (hp : p.FiniteAt) (hq : q.FiniteAt) (bp : ∀ i, (p.coord i).natAbs ≤ 2 ^ 274) (bq : ∀ i, (q.coord i).natAbs ≤ 2 ^ 274) :
    (getDist p q).isNan = false := by
  obtain ⟨⟨h1, _⟩, h3, _⟩ := head2_diff hp hq bp bq
  exact (add_val (abs_finite h1) (abs_finite h3)).1

theorem tiny_val : F32.tiny.isNan = false ∧ 0 < F32.tiny.val ∧ F32.tiny.val ≤ 2 ^ 125 := by decide +kernel

/-- The comparison of angles with a tolerance is exact. -/
theorem close_iff {a b : F32} (ha : F32.finite a = true) (hb : F32.finite b = true) (da : (2 : Int) ^ 125 ∣ a.val) (db : (2 : Int) ^ 125 ∣ b.val) :
    (a.sub b).abs.lt F32.tiny = true ↔ a.val = b.val := by
  obtain ⟨n, v⟩ := sub_val ha hb
  obtain ⟨t1, t2, t3⟩ := tiny_val
  rw [lt_iff (abs_notNan n) t1, abs_val, v]
  constructor
  · intro h
    apply Classical.byContradiction
    intro hne
    have hd : (2 : Int) ^ 125 ∣ a.val - b.val := Int.dvd_sub da db
    have hge : 2 ^ 125 ≤ (a.val - b.val).natAbs := by
      have := Int.natAbs_dvd_natAbs.2 hd
      rw [Int.natAbs_pow] at this
      exact Nat.le_of_dvd (by omega) this
    have h1 : 2 ^ 125 ≤ (fl (a.val - b.val)).natAbs := by
      rw [natAbs_fl, ← roundMag_pow (n := 125) (by decide)]
      exact magVal_le (roundMag_mono (by decide) (by decide) (by omega))
    have h2 : ((2 ^ 125 : Nat) : Int) = (2 : Int) ^ 125 := by decide
    rw [← h2] at t3
    generalize (2 : Nat) ^ 125 = u at *
    omega
  · intro h
    rw [h, Int.sub_self, fl_zero]
    exact t2

/-- What the comparison of the points means: first by angle, then by distance. -/
theorem before_iff {ps : List V3f} (h : Tidy ps) {root i j : Nat} (hr : root < ps.length) (hi : i < ps.length) (hj : j < ps.length) :
    before ps root i j = true ↔ (getAngle (pt ps i) (pt ps root)).val < (getAngle (pt ps j) (pt ps root)).val ∨
      ((getAngle (pt ps i) (pt ps root)).val = (getAngle (pt ps j) (pt ps root)).val ∧
        (getDist (pt ps i) (pt ps root)).val < (getDist (pt ps j) (pt ps root)).val) := by
  have mr := pt_mem hr
  have ok := fun k (hk : k < ps.length) => getAngle_ok (h.finite _ (pt_mem hk)) (h.finite _ mr) (h.small _ (pt_mem hk)) (h.small _ mr)
  have dk := fun k (hk : k < ps.length) => getDist_ok (h.finite _ (pt_mem hk)) (h.finite _ mr) (h.small _ (pt_mem hk)) (h.small _ mr)
  unfold before
  dsimp only
  have c := close_iff (ok i hi).1 (ok j hj).1 (ok i hi).2 (ok j hj).2
  split
  · rename_i h'
    rw [lt_iff (dk i hi) (dk j hj)]
    have := c.1 h'
    omega
  · rename_i h'
    rw [lt_iff (finite_notNan (ok i hi).1) (finite_notNan (ok j hj).1)]
    have : (getAngle (pt ps i) (pt ps root)).val ≠ (getAngle (pt ps j) (pt ps root)).val := fun e => h' (c.2 e)
    omega

theorem others_mem {ps : List V3f} {root i : Nat} : i ∈ others ps root ↔ i < ps.length ∧ i ≠ root := by
  unfold others; simp

theorem strictWeak_iff {lt : Nat → Nat → Bool} {l : List Nat} : strictWeak lt l = true ↔
    (∀ a ∈ l, lt a a = false) ∧ (∀ a ∈ l, ∀ b ∈ l, ∀ c ∈ l, lt a b = true → lt b c = true → lt a c = true) ∧
    (∀ a ∈ l, ∀ b ∈ l, ∀ c ∈ l, lt a b = false → lt b a = false → lt b c = false → lt c b = false → lt a c = false ∧ lt c a = false) := by
  unfold strictWeak
  simp only [List.all_eq_true, Bool.and_eq_true, Bool.or_eq_true, Bool.not_eq_true']
  constructor
  · intro h
    refine ⟨fun a ha => (h a ha).1, fun a ha b hb c hc h1 h2 => ?_, fun a ha b hb c hc h1 h2 h3 h4 => ?_⟩
    · have := ((h a ha).2 b hb c hc).1
      simpa [h1, h2] using this
    · have := ((h a ha).2 b hb c hc).2
      simpa [h1, h2, h3, h4] using this
  · intro ⟨h1, h2, h3⟩ a ha
    refine ⟨h1 a ha, fun b hb c hc => ⟨?_, ?_⟩⟩
    · have := h2 a ha b hb c hc
      cases hab : lt a b <;> cases hbc : lt b c <;> simp_all
    · have := h3 a ha b hb c hc
      cases hab : lt a b <;> cases hba : lt b a <;> cases hbc : lt b c <;> cases hcb : lt c b <;> simp_all

theorem before_false {ps : List V3f} (h : Tidy ps) {root i j : Nat} (hr : root < ps.length) (hi : i < ps.length) (hj : j < ps.length) :
    before ps root i j = false ↔ ¬ ((getAngle (pt ps i) (pt ps root)).val < (getAngle (pt ps j) (pt ps root)).val ∨
      ((getAngle (pt ps i) (pt ps root)).val = (getAngle (pt ps j) (pt ps root)).val ∧
        (getDist (pt ps i) (pt ps root)).val < (getDist (pt ps j) (pt ps root)).val)) := by
  rw [← before_iff h hr hi hj, Bool.not_eq_true]

theorem tidy_strictWeak {ps : List V3f} (h : Tidy ps) {root : Nat} (hr : root < ps.length) : strictWeak (before ps root) (others ps root) = true := by
  rw [strictWeak_iff]
  refine ⟨?_, ?_, ?_⟩
  · intro a ha
    rw [others_mem] at ha
    rw [before_false h hr ha.1 ha.1]; omega
  · intro a ha b hb c hc
    rw [others_mem] at ha hb hc
    rw [before_iff h hr ha.1 hb.1, before_iff h hr hb.1 hc.1, before_iff h hr ha.1 hc.1]; omega
  · intro a ha b hb c hc
    rw [others_mem] at ha hb hc
    rw [before_false h hr ha.1 hb.1, before_false h hr hb.1 ha.1, before_false h hr hb.1 hc.1, before_false h hr hc.1 hb.1, before_false h hr ha.1 hc.1,
      before_false h hr hc.1 ha.1]
    omega

end Hull
end Verif
