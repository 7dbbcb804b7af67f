import Verif.Lemmas.Box2
/-! # Fitting and merging boxes; numbers on a grid are not rounded -/

namespace Verif
namespace F32

/-! ## No overflow below half of the range -/

theorem natAbs_val_lt {x : F32} (h : x.val.natAbs < 2 ^ 276) : x.val.natAbs ≤ (2 ^ 24 - 1) * 2 ^ 252 := by
  rw [natAbs_val] at *
  have e : (2 : Nat) ^ 276 = magVal (254 * 2 ^ 23) := by decide +kernel
  rw [e, magVal_lt_iff] at h
  have := magVal_le (show x.magBits ≤ 254 * 2 ^ 23 - 1 by omega)
  have e2 : magVal (254 * 2 ^ 23 - 1) = (2 ^ 24 - 1) * 2 ^ 252 := by decide +kernel
  rwa [e2] at this

theorem fl_lt_top {n : Int} (h : n.natAbs ≤ 2 * ((2 ^ 24 - 1) * 2 ^ 252)) : (fl n).natAbs < top := by
  rw [natAbs_fl, ← magVal_inf, magVal_lt_iff]
  have e : 2 * ((2 ^ 24 - 1) * 2 ^ 252) = magVal (255 * 2 ^ 23 - 1) := by decide +kernel
  rw [e] at h
  have := roundMag_mono (p := n.natAbs) (p' := magVal (255 * 2 ^ 23 - 1)) (q := 1) (q' := 1) (by decide) (by decide) (by omega)
  rw [roundMag_magVal (by omega)] at this
  omega

theorem fl_le_top (n : Int) : (fl n).natAbs ≤ top := by
  rw [natAbs_fl, ← magVal_inf]; exact magVal_le (roundMag_le _ _)

theorem half_bound {x : F32} (hx : F32.finite x = true) : 2 * x.half.val ≤ x.val + 1 ∧ x.val ≤ 2 * x.half.val + 1 := by
  obtain ⟨h1, h2, h3⟩ := half_val hx
  have hb := hf_bound (b := x.magBits) (by rw [finite_mag] at hx; omega)
  have e : x.val = if x.neg? then -(magVal x.magBits : Int) else magVal x.magBits := rfl
  generalize magVal x.magBits = m at *
  cases hn : x.neg? <;> rw [hn] at h3 e <;> simp only [Bool.false_eq_true, if_false, if_true] at h3 e <;> omega

/-- Half of an even number is exact. -/
theorem half_even {x : F32} (hx : F32.finite x = true) (h : x.val % 2 = 0) : 2 * x.half.val = x.val := by
  obtain ⟨h1, h2, h3⟩ := half_val hx
  have e : x.val = if x.neg? then -(magVal x.magBits : Int) else magVal x.magBits := rfl
  have hm : magVal x.magBits % 2 = 0 := by
    generalize magVal x.magBits = m at *
    split at e <;> omega
  have hb := hf_even (b := x.magBits) (by rw [finite_mag] at hx; omega) hm
  generalize magVal x.magBits = m at *
  cases hn : x.neg? <;> rw [hn] at h3 e <;> simp only [Bool.false_eq_true, if_false, if_true] at h3 e <;> omega

/-! ## Grids -/

theorem magVal_raw {p : Nat} (h : 2 ^ shiftOf p 1 ∣ p) : magVal (rawMag p 1) = p := by
  have hv : magVal (rawMag p 1) = nearest p (1 * 2 ^ shiftOf p 1) * 2 ^ shiftOf p 1 := by
    unfold rawMag
    by_cases hs : 0 < shiftOf p 1
    · exact magVal_shift ((nearest_range (by decide)).2 hs) (nearest_range (by decide)).1
    · have h0 : shiftOf p 1 = 0 := by omega
      have h1 := (nearest_range (p := p) (q := 1) (by decide)).1
      rw [h0] at *
      rw [Nat.zero_mul, Nat.zero_add, Nat.pow_zero, Nat.mul_one, Nat.mul_one] at *
      rcases Nat.lt_or_eq_of_le h1 with h2 | h2
      · exact magVal_small h2
      · rw [h2]; decide +kernel
  obtain ⟨k, hk⟩ := h
  rw [hv, Nat.one_mul]
  generalize 2 ^ shiftOf p 1 = Q at *
  by_cases hQ : Q = 0
  · subst hQ; rw [Nat.mul_zero, hk, Nat.zero_mul]
  · rw [hk, Nat.mul_comm Q k, nearest_exact _ _ (by omega)]

/-- Multiples of `2^g` with at most 24 digits are not rounded. -/
theorem fl_grid {n : Int} (g : Nat) (hg : g ≤ 253) (hd : (2 : Int) ^ g ∣ n) (hn : n.natAbs < 2 ^ 24 * 2 ^ g) : fl n = n := by
  have hd' : 2 ^ g ∣ n.natAbs := by
    have := Int.natAbs_dvd_natAbs.2 hd
    rwa [Int.natAbs_pow] at this
  have key : magVal (roundMag n.natAbs 1) = n.natAbs := by
    have hs : shiftOf n.natAbs 1 ≤ g := by
      unfold shiftOf
      rw [Nat.div_one]
      by_cases h0 : n.natAbs = 0
      · rw [h0]; simp
      · have : n.natAbs.log2 < 24 + g := by rw [Nat.log2_lt h0, Nat.pow_add]; exact hn
        omega
    have hv := magVal_raw (p := n.natAbs) (Nat.dvd_trans (Nat.pow_dvd_pow 2 hs) hd')
    have : rawMag n.natAbs 1 ≤ 255 * 2 ^ 23 := by
      rw [← magVal_le_iff, hv, magVal_inf]
      have : 2 ^ 24 * 2 ^ g ≤ top := by
        unfold top
        rw [← Nat.pow_add]
        exact Nat.pow_le_pow_right (by decide) (by omega)
      omega
    rw [roundMag_eq, Nat.min_eq_left this, hv]
  unfold fl
  rw [key]
  split <;> omega

end F32

open F32

theorem V3f.all_swap (a b : V3f) : a.all (fun x y => F32.lt y x) b = b.all F32.lt a := rfl

/-! ## The smallest and largest coordinates -/

theorem foldl_min {ps : List V3f} {p : V3f} (i : Axis) (hp : F32.finite (p.at i) = true) (hs : ∀ q ∈ ps, F32.finite (q.at i) = true) :
    F32.finite ((ps.foldl (V3f.zip F32.min') p).at i) = true ∧
    (∀ q ∈ p :: ps, (ps.foldl (V3f.zip F32.min') p).coord i ≤ q.coord i) ∧
    ∃ q ∈ p :: ps, (ps.foldl (V3f.zip F32.min') p).coord i = q.coord i := by
  induction ps generalizing p with
  | nil => exact ⟨hp, fun q hq => by simp only [List.mem_singleton] at hq; subst hq; exact Int.le_refl _, p, by simp, rfl⟩
  | cons r ps ih =>
    have hr := hs r (by simp)
    have e : (p.zip F32.min' r).at i = F32.min' (p.at i) (r.at i) := V3f.at_zip ..
    have hf : F32.finite ((p.zip F32.min' r).at i) = true := by rw [e]; exact min'_finite hp hr
    have hv : (p.zip F32.min' r).coord i = min (p.coord i) (r.coord i) := by
      unfold V3f.coord; rw [e]; exact min'_val (finite_notNan hp) (finite_notNan hr)
    obtain ⟨h1, h2, q, hq, h3⟩ := ih hf (fun q hq => hs q (by simp [hq]))
    rw [List.foldl_cons]
    refine ⟨h1, ?_, ?_⟩
    · intro q hq
      have h0 := h2 (p.zip F32.min' r) (by simp)
      rw [hv] at h0
      rcases List.mem_cons.1 hq with rfl | hq
      · omega
      · rcases List.mem_cons.1 hq with rfl | hq
        · omega
        · exact h2 q (by simp [hq])
    · rcases List.mem_cons.1 hq with rfl | hq
      · rw [hv] at h3
        rcases Int.le_total (p.coord i) (r.coord i) with hh | hh
        · exact ⟨p, by simp, by rw [h3, Int.min_eq_left hh]⟩
        · exact ⟨r, by simp, by rw [h3, Int.min_eq_right hh]⟩
      · exact ⟨q, by simp [hq], h3⟩

theorem foldl_max {ps : List V3f} {p : V3f} (i : Axis) (hp : F32.finite (p.at i) = true) (hs : ∀ q ∈ ps, F32.finite (q.at i) = true) :
    F32.finite ((ps.foldl (V3f.zip F32.max') p).at i) = true ∧
    (∀ q ∈ p :: ps, q.coord i ≤ (ps.foldl (V3f.zip F32.max') p).coord i) ∧
    ∃ q ∈ p :: ps, (ps.foldl (V3f.zip F32.max') p).coord i = q.coord i := by
  induction ps generalizing p with
  | nil => exact ⟨hp, fun q hq => by simp only [List.mem_singleton] at hq; subst hq; exact Int.le_refl _, p, by simp, rfl⟩
  | cons r ps ih =>
    have hr := hs r (by simp)
    have e : (p.zip F32.max' r).at i = F32.max' (p.at i) (r.at i) := V3f.at_zip ..
    have hf : F32.finite ((p.zip F32.max' r).at i) = true := by rw [e]; exact max'_finite hp hr
    have hv : (p.zip F32.max' r).coord i = max (p.coord i) (r.coord i) := by
      unfold V3f.coord; rw [e]; exact max'_val (finite_notNan hp) (finite_notNan hr)
    obtain ⟨h1, h2, q, hq, h3⟩ := ih hf (fun q hq => hs q (by simp [hq]))
    rw [List.foldl_cons]
    refine ⟨h1, ?_, ?_⟩
    · intro q hq
      have h0 := h2 (p.zip F32.max' r) (by simp)
      rw [hv] at h0
      rcases List.mem_cons.1 hq with rfl | hq
      · omega
      · rcases List.mem_cons.1 hq with rfl | hq
        · omega
        · exact h2 q (by simp [hq])
    · rcases List.mem_cons.1 hq with rfl | hq
      · rw [hv] at h3
        rcases Int.le_total (p.coord i) (r.coord i) with hh | hh
        · exact ⟨r, by simp, by rw [h3, Int.max_eq_right hh]⟩
        · exact ⟨p, by simp, by rw [h3, Int.max_eq_left hh]⟩
      · exact ⟨q, by simp [hq], h3⟩

/-! ## A box from its corners -/

/-- One axis of `extractAABB` and `mergeAABB`: the dimension and the centre made from the least and the greatest coordinate. -/
structure Spans (mn mx d c : F32) : Prop where
  dFinite : F32.finite d = true
  cFinite : F32.finite c = true
  dval : d.val = fl (mx.val - mn.val)
  cval : 2 * c.val ≤ fl (mn.val + mx.val) + 1 ∧ fl (mn.val + mx.val) ≤ 2 * c.val + 1
  cexact : fl (mn.val + mx.val) % 2 = 0 → 2 * c.val = fl (mn.val + mx.val)
  dErr : 2 ^ 24 * (d.val - (mx.val - mn.val)).natAbs ≤ (mx.val - mn.val).natAbs
  sErr : 2 ^ 24 * (fl (mn.val + mx.val) - (mn.val + mx.val)).natAbs ≤ (mn.val + mx.val).natAbs

theorem spans {mn mx : F32} (h1 : mn.isNan = false) (h2 : mx.isNan = false) (h3 : mn.val.natAbs < 2 ^ 276) (h4 : mx.val.natAbs < 2 ^ 276) :
    Spans mn mx (mx.sub mn) ((mn.add mx).half) := by
  have t : (2 : Nat) ^ 276 ≤ top := Nat.pow_le_pow_right (by decide) (by decide)
  have f1 : F32.finite mn = true := (finite_iff_val h1).2 (Nat.lt_of_lt_of_le h3 t)
  have f2 : F32.finite mx = true := (finite_iff_val h2).2 (Nat.lt_of_lt_of_le h4 t)
  have b1 := natAbs_val_lt h3
  have b2 := natAbs_val_lt h4
  obtain ⟨s1, s2⟩ := sub_val f2 f1
  obtain ⟨a1, a2⟩ := add_val f1 f2
  generalize hB : (2 ^ 24 - 1) * 2 ^ 252 = B at b1 b2
  have l1 : (fl (mx.val - mn.val)).natAbs < top := fl_lt_top (by rw [hB]; omega)
  have l2 : (fl (mn.val + mx.val)).natAbs < top := fl_lt_top (by rw [hB]; omega)
  have fd : F32.finite (mx.sub mn) = true := (finite_iff_val s1).2 (by rw [s2]; exact l1)
  have fs : F32.finite (mn.add mx) = true := (finite_iff_val a1).2 (by rw [a2]; exact l2)
  refine ⟨fd, half_finite fs, s2, ?_, ?_, ?_, fl_err l2⟩
  · rw [← a2]; exact half_bound fs
  · rw [← a2]; exact half_even fs
  · rw [s2]; exact fl_err l1

end Verif
