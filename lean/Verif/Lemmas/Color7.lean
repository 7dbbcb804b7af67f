import Mathlib.Tactic.LinearCombination
import Verif.Lemmas.Color6
/-! # Colours: grey, quality, spectrum and the rainbow -/

set_option exponentiation.threshold 2000

namespace Verif
namespace F32

theorem toU8_cases (x : F32) : (∃ c, x.toU8 = .ok c) ∨ x.toU8 = .ub := by
  unfold toU8 toUnsigned
  split
  · right; rfl
  · split
    · right; rfl
    · split
      · right; rfl
      · left; exact ⟨_, rfl⟩

/-- Truncation keeps the order. -/
theorem toU8_mono {x y : F32} {c d : UInt8} (h : x.val ≤ y.val) (hx : x.toU8 = .ok c) (hy : y.toU8 = .ok d) (y0 : 0 ≤ y.val) (x0 : 0 ≤ x.val) : c ≤ d := by
  have key : ∀ {z : F32} {e : UInt8}, 0 ≤ z.val → z.toU8 = .ok e → (e.toNat : Int) = z.val / unit := by
    intro z e z0 hz
    have hf : F32.finite z = true ∧ z.val < 256 * unit := by
      unfold toU8 toUnsigned at hz
      rw [unit_int] at hz
      split at hz
      · cases hz
      · rename_i h1
        split at hz
        · cases hz
        · split at hz
          · cases hz
          · rename_i h2
            simp only [Bool.or_eq_true, not_or, Bool.not_eq_true] at h1
            refine ⟨?_, ?_⟩
            · rw [finite_iff_val h1.1]
              have : (2 : Int) ^ 8 * unit = 256 * unit := rfl
              have := unit_top 8 (by decide)
              have h3 : (2 : Nat) ^ 8 * unit = 256 * unit := rfl
              omega
            · have : (2 : Int) ^ 8 * unit = 256 * unit := rfl
              omega
    have hu := unit_pos
    obtain ⟨e', k1, k2⟩ := toU8_ok hf.1 (by omega) hf.2
    rw [k1] at hz
    cases hz
    rw [k2]; exact Int.toNat_of_nonneg (Int.ediv_nonneg z0 (by omega))
  have h1 := key x0 hx
  have h2 := key y0 hy
  have h3 := Int.ediv_le_ediv (c := (unit : Int)) (by have := unit_pos; omega) h
  rw [← h1, ← h2] at h3
  exact UInt8.le_iff_toNat_le.2 (by omega)

theorem mul_c255_mono {x y : F32} (hx : F32.finite x = true) (hy : F32.finite y = true) (x0 : 0 ≤ x.val) (h : x.val ≤ y.val) :
    (x.mul c255).val ≤ (y.mul c255).val := by
  have hc : (0 : Int) ≤ c255.val := by decide +kernel
  have ex := (mul_natAbs hx c255_finite).2
  have ey := (mul_natAbs hy c255_finite).2
  have ex0 := mul_nonneg_val hx c255_finite x0 hc
  have ey0 := mul_nonneg_val hy c255_finite (Int.le_trans x0 h) hc
  have hm : magVal (roundMag (x.val.natAbs * c255.val.natAbs) unit) ≤ magVal (roundMag (y.val.natAbs * c255.val.natAbs) unit) := by
    apply magVal_le
    apply roundMag_mono unit_pos unit_pos
    exact Nat.mul_le_mul_right _ (Nat.mul_le_mul_right _ (by omega))
  generalize magVal (roundMag (x.val.natAbs * c255.val.natAbs) unit) = a at *
  generalize magVal (roundMag (y.val.natAbs * c255.val.natAbs) unit) = b at *
  split at ex <;> split at ey <;> omega

/-- An integer as a `float`. -/
theorem ofNat_real_err (n : Nat) (h : n < 2 ^ 64) : F32.finite (ofNat n) = true ∧ 0 ≤ (ofNat n).real ∧ |(ofNat n).real - n| ≤ 1 / 2 ^ 24 * n := by
  obtain ⟨h1, h2, h3⟩ := ofNat_val n (Nat.mul_lt_mul_of_pos_right (Nat.lt_trans h (by decide)) unit_pos)
  refine ⟨h1, real_nonneg.1 h3, ?_⟩
  have h4 := fl_err (n := ((n * unit : Nat) : Int)) (by
    rw [← h2]; have := (val_finite h1).2; omega)
  rw [← h2] at h4
  have h5 := scale h4
  have e1 : (((ofNat n).val - ((n * unit : Nat) : Int) : Int) : ℚ) / unit = (ofNat n).real - n := by
    rw [real_eq]; push_cast; rw [sub_div, mul_div_assoc, div_self unitQ_ne, mul_one]
  have e2 : (((n * unit : Nat) : Int) : ℚ) / unit = n := by
    push_cast; rw [mul_div_assoc, div_self unitQ_ne, mul_one]
  rw [e1, e2, abs_of_nonneg (show (0 : ℚ) ≤ n from Nat.cast_nonneg n)] at h5
  exact h5

end F32

namespace Color
open F32 ColorSpec

/-! ## Blending -/

theorem blendChannel_trunc {r o : UInt8} {w : F32} (hw : F32.finite w = true) (h0 : 0 ≤ w.real) (h1 : w.real ≤ 1) :
    ∃ c, blendChannel r o w = .ok c ∧ Truncates c (mix r.toNat o.toNat w.real) := by
  obtain ⟨c, k1, k2, k3⟩ := blendChannel_close (r := r) (o := o) hw (real_nonneg.2 h0) (real_le_one.2 h1)
  refine ⟨c, k1, ?_⟩
  have hu := unitQ_pos
  have q2 : (2 ^ 13 * (c.toNat * unit) : ℚ) ≤ 2 ^ 13 * (r.toNat * (unit - w.val) + o.toNat * w.val) + unit := by exact_mod_cast k2
  have q3 : (2 ^ 13 * (r.toNat * (unit - w.val) + o.toNat * w.val) : ℚ) < 2 ^ 13 * ((c.toNat + 1) * unit) + unit := by exact_mod_cast k3
  rw [val_real] at q2 q3
  have e : (r.toNat : ℚ) * (unit - w.real * unit) + o.toNat * (w.real * unit) = mix r.toNat o.toNat w.real * unit := by unfold mix; ring
  rw [e] at q2 q3
  generalize mix r.toNat o.toNat w.real = M at *
  have p2 : (2 ^ 13 * c.toNat : ℚ) ≤ 2 ^ 13 * M + 1 := by
    rw [← mul_le_mul_iff_left₀ hu]; linarith
  have p3 : (2 ^ 13 * M : ℚ) < 2 ^ 13 * (c.toNat + 1) + 1 := by
    rw [← mul_lt_mul_iff_left₀ hu]; linarith
  constructor <;> norm_num at * <;> linarith

/-- All channels of a blend. -/
theorem blend_trunc (x y : Color) {weight : F32} (h : weight.isNan = false) :
    ∃ c, blend x y weight = .ok c ∧ Truncates c.r (mix x.r.toNat y.r.toNat (unitRange weight.real)) ∧ Truncates c.g (mix x.g.toNat y.g.toNat (unitRange weight.real)) ∧
      Truncates c.b (mix x.b.toNat y.b.toNat (unitRange weight.real)) ∧ Truncates c.a (mix x.a.toNat y.a.toNat (unitRange weight.real)) := by
  obtain ⟨w1, w2, w3, w4⟩ := clamp01_real h
  rw [← w2]
  unfold blend
  obtain ⟨a, a1, a2⟩ := blendChannel_trunc (r := x.r) (o := y.r) w1 w3 w4
  obtain ⟨b, b1, b2⟩ := blendChannel_trunc (r := x.g) (o := y.g) w1 w3 w4
  obtain ⟨c, c1, c2⟩ := blendChannel_trunc (r := x.b) (o := y.b) w1 w3 w4
  obtain ⟨d, d1, d2⟩ := blendChannel_trunc (r := x.a) (o := y.a) w1 w3 w4
  exact ⟨⟨a, b, c, d⟩, by simp only [a1, b1, c1, d1]; rfl, a2, b2, c2, d2⟩

theorem blend_zero (x y : Color) {weight : F32} (h : weight.isNan = false) (h0 : weight.real ≤ 0) : blend x y weight = .ok x := by
  obtain ⟨w1, w2, w3, w4⟩ := clamp01_real h
  have e : weight.clamp01.val = 0 := by
    have : weight.clamp01.real = 0 := by rw [w2]; unfold unitRange; rw [max_eq_left]; exact le_trans (min_le_left _ _) h0
    have h2 := val_real weight.clamp01
    rw [this, zero_mul] at h2
    exact_mod_cast h2
  unfold blend
  simp only [blendChannel_zero w1 e]; rfl

theorem blend_one (x y : Color) {weight : F32} (h : weight.isNan = false) (h0 : 1 ≤ weight.real) : blend x y weight = .ok y := by
  obtain ⟨w1, w2, w3, w4⟩ := clamp01_real h
  have e : weight.clamp01.val = unit := by
    have : weight.clamp01.real = 1 := by rw [w2]; unfold unitRange; rw [min_eq_right h0]; exact max_eq_right (by norm_num)
    have h2 := val_real weight.clamp01
    rw [this, one_mul] at h2
    exact_mod_cast h2
  unfold blend
  simp only [blendChannel_one w1 e]; rfl

theorem blend_nan (x y : Color) {weight : F32} (h : weight.isNan = true) : blend x y weight = .ub := by
  unfold blend; simp only [blendChannel_nan (clamp01_nan h)]; rfl

/-- A truncated mixture lies between the two channels, up to one step below. -/
theorem mix_between {c a b : UInt8} {t : ℚ} (t0 : 0 ≤ t) (t1 : t ≤ 1) (h : Truncates c (mix a.toNat b.toNat t)) :
    min a.toNat b.toNat ≤ c.toNat + 1 ∧ c.toNat ≤ max a.toNat b.toNat := by
  obtain ⟨h1, h2⟩ := h
  have lo : ((min a.toNat b.toNat : Nat) : ℚ) ≤ mix a.toNat b.toNat t := by
    push_cast; unfold mix
    have e1 := min_le_left (a.toNat : ℚ) b.toNat
    have e2 := min_le_right (a.toNat : ℚ) b.toNat
    nlinarith
  have hi : mix a.toNat b.toNat t ≤ ((max a.toNat b.toNat : Nat) : ℚ) := by
    push_cast; unfold mix
    have e1 := le_max_left (a.toNat : ℚ) b.toNat
    have e2 := le_max_right (a.toNat : ℚ) b.toNat
    nlinarith
  constructor
  · have : ((min a.toNat b.toNat : Nat) : ℚ) < ((c.toNat + 2 : Nat) : ℚ) := by rw [Nat.cast_add, Nat.cast_ofNat]; linarith
    have : min a.toNat b.toNat < c.toNat + 2 := by exact_mod_cast this
    omega
  · have : ((c.toNat : Nat) : ℚ) < ((max a.toNat b.toNat + 1 : Nat) : ℚ) := by rw [Nat.cast_add, Nat.cast_one]; linarith
    have : c.toNat < max a.toNat b.toNat + 1 := by exact_mod_cast this
    omega

/-! ## Grey and quality -/

theorem times255 {x : F32} {e : ℚ} (hx : F32.finite x = true) (he : |x.real - e| ≤ 1 / 2 ^ 20) (e0 : 0 ≤ e) (e1 : e ≤ 1) :
    ∃ c, (x.mul c255).toU8 = .ok c ∧ Truncates c (255 * e) := by
  have g : |x.real * 255| ≤ 2 ^ 9 := by
    rw [abs_le] at *; constructor <;> norm_num at * <;> linarith
  obtain ⟨m1, m2⟩ := real_mul hx c255_finite (by rw [c255_real]; exact le_trans g (by norm_num))
  rw [c255_real] at m2
  have m3 : |(x.mul c255).real - x.real * 255| ≤ 1 / 2 ^ 14 := by norm_num at *; linarith
  apply real_toU8 m1 _ (by linarith) (by linarith)
  clear m2 g
  rw [abs_le] at *; constructor <;> norm_num at * <;> linarith

theorem gray_ok {v : F32} (h : v.isNan = false) : ∃ c, (v.clamp01.mul c255).toU8 = .ok c ∧ gray v = .ok ⟨c, c, c, 255⟩ ∧ Truncates c (255 * unitRange v.real) := by
  obtain ⟨w1, w2, w3, w4⟩ := clamp01_real h
  obtain ⟨c, k1, k2⟩ := times255 w1 (e := v.clamp01.real) (by rw [sub_self, abs_zero]; norm_num) w3 w4
  rw [w2] at k2
  exact ⟨c, k1, by unfold gray; rw [k1]; rfl, k2⟩

theorem double_close {x : F32} {e : ℚ} (hx : F32.finite x = true) (he : |x.real - e| ≤ 1 / 2 ^ 24) (e0 : 0 ≤ e) (e1 : e ≤ 1 / 2) :
    F32.finite (x.mul two) = true ∧ |(x.mul two).real - 2 * e| ≤ 1 / 2 ^ 20 := by
  have g : |x.real * 2| ≤ 2 := by rw [abs_le] at *; constructor <;> norm_num at * <;> linarith
  obtain ⟨m1, m2⟩ := real_mul hx two_finite (by rw [two_real]; exact le_trans g (by norm_num))
  rw [two_real] at m2
  refine ⟨m1, ?_⟩
  have m3 : |(x.mul two).real - x.real * 2| ≤ 1 / 2 ^ 22 := by norm_num at *; linarith
  clear m2 g
  rw [abs_le] at *; constructor <;> norm_num at * <;> linarith

theorem quality_ok {v : F32} (h : v.isNan = false) :
    ∃ c, (unitRange v.real ≤ 1 / 2 → quality v = .ok ⟨255, c, 0, 255⟩ ∧ Truncates c (255 * (2 * unitRange v.real))) ∧
      (1 / 2 < unitRange v.real → quality v = .ok ⟨c, 255, 0, 255⟩ ∧ Truncates c (255 * (2 * (1 - unitRange v.real)))) := by
  obtain ⟨w1, w2, w3, w4⟩ := clamp01_real h
  rw [← w2]
  have hlt : F32.ofHalf.lt v.clamp01 = true ↔ 1 / 2 < v.clamp01.real := by
    rw [lt_iff (finite_notNan half_is_finite) (finite_notNan w1), real_lt_real, half_real]
  by_cases hc : 1 / 2 < v.clamp01.real
  · obtain ⟨s1, s2⟩ := real_sub one_finite w1 (by rw [one_real, abs_of_nonneg (by linarith)]; norm_num; linarith)
    rw [one_real, abs_of_nonneg (show 0 ≤ 1 - v.clamp01.real by linarith)] at s2
    obtain ⟨d1, d2⟩ := double_close s1 (e := 1 - v.clamp01.real) (by refine le_trans s2 ?_; norm_num; linarith) (by linarith) (by linarith)
    obtain ⟨c, k1, k2⟩ := times255 d1 d2 (by linarith) (by linarith)
    refine ⟨c, fun hh => absurd hc (not_lt.2 hh), fun _ => ⟨?_, k2⟩⟩
    unfold quality; simp only [hlt.2 hc, if_true]; rw [k1]; rfl
  · obtain ⟨d1, d2⟩ := double_close w1 (e := v.clamp01.real) (by rw [sub_self, abs_zero]; norm_num) w3 (not_lt.1 hc)
    obtain ⟨c, k1, k2⟩ := times255 d1 d2 (by linarith) (by linarith)
    refine ⟨c, fun _ => ⟨?_, k2⟩, fun hh => absurd hh hc⟩
    unfold quality
    have : F32.ofHalf.lt v.clamp01 = false := by rw [← Bool.not_eq_true, hlt]; exact hc
    simp only [this, Bool.false_eq_true, if_false]; rw [k1]; rfl

/-! ## Spectrum -/

theorem spectrum_step {colors : List Color} {n i : Nat} {f : Nat → F32} {x y : Color} (h : ¬ n ≤ i) (hx : colors[i]? = some x) (hy : colors[i + 1]? = some y) :
    (do let index ← Res.ok i
        if n ≤ index then Res.at? colors[n]?
        else do
          let x ← Res.at? colors[index]?
          let y ← Res.at? colors[index + 1]?
          x.blend y (f index)) = x.blend y (f i) := by
  rw [Res.bind_ok, if_neg h, hx, hy, Res.at?_some, Res.bind_ok, Res.at?_some, Res.bind_ok]

theorem spectrum_end {colors : List Color} {n i : Nat} {f : Nat → F32} {z : Color} (h : n ≤ i) (hx : colors[n]? = some z) :
    (do let index ← Res.ok i
        if n ≤ index then Res.at? colors[n]?
        else do
          let x ← Res.at? colors[index]?
          let y ← Res.at? colors[index + 1]?
          x.blend y (f index)) = .ok z := by
  rw [Res.bind_ok, if_pos h, hx, Res.at?_some]

theorem spectrum_ok {value : F32} {colors : List Color} (h : value.isNan = false) (hne : colors ≠ []) (hlen : colors.length ≤ 2 ^ 63) :
    ∃ v : F32, ∃ i : Nat, F32.finite v = true ∧ (i : ℚ) ≤ v.real ∧ v.real < i + 1 ∧
      |v.real - unitRange value.real * (colors.length - 1 : Nat)| ≤ 3 / 2 ^ 24 * (colors.length - 1 : Nat) + 1 / 2 ^ 40 ∧
      (i < colors.length - 1 → ∃ x y, colors[i]? = some x ∧ colors[i + 1]? = some y ∧ (v.sub (F32.ofNat i)).isNan = false ∧
        spectrum value colors = x.blend y (v.sub (F32.ofNat i)) ∧
        |(v.sub (F32.ofNat i)).real - (v.real - i)| ≤ 3 / 2 ^ 24 * ((colors.length - 1 : Nat) + 1) ) ∧
      (colors.length - 1 ≤ i → spectrum value colors = .ok (colors.getLast hne)) := by
  obtain ⟨w1, w2, w3, w4⟩ := clamp01_real h
  rw [← w2]
  have hs : spectrum value colors = (do
      let index ← (value.clamp01.mul (F32.ofNat (colors.length - 1))).toUnsigned 64
      if colors.length - 1 ≤ index then Res.at? colors[colors.length - 1]?
      else do
        let x ← Res.at? colors[index]?
        let y ← Res.at? colors[index + 1]?
        x.blend y ((value.clamp01.mul (F32.ofNat (colors.length - 1))).sub (F32.ofNat index))) := by
    cases colors with
    | nil => exact absurd rfl hne
    | cons a l => rfl
  rw [hs]
  have hlast : colors[colors.length - 1]? = some (colors.getLast hne) := by
    rw [List.getLast_eq_getElem, List.getElem?_eq_getElem]
  generalize hn : colors.length - 1 = n at *
  have hpos : 0 < colors.length := List.length_pos_iff.2 hne
  have hn63 : n < 2 ^ 63 := by omega
  obtain ⟨f1, f2, f3⟩ := ofNat_real_err n (by omega)
  generalize F32.ofNat n = N at *
  generalize value.clamp01 = t at *
  have n63 : (n : ℚ) ≤ 2 ^ 63 := by exact_mod_cast (by omega : n ≤ 2 ^ 63)
  have n0 : (0 : ℚ) ≤ n := Nat.cast_nonneg n
  have N1 : N.real ≤ 2 ^ 64 := by have := (abs_le.1 f3).2; linarith
  have tN0 : 0 ≤ t.real * N.real := mul_nonneg w3 f2
  have tN1 : t.real * N.real ≤ N.real := mul_le_of_le_one_left f2 w4
  obtain ⟨m1, m2⟩ := real_mul' 64 (by decide) w1 f1 (by rw [abs_of_nonneg tN0]; linarith)
  rw [abs_of_nonneg tN0] at m2
  have v0 := mul_nonneg_val w1 f1 (real_nonneg.2 w3) (real_nonneg.2 f2)
  have hv0 := real_nonneg.1 v0
  have hvu : |(t.mul N).real - t.real * n| ≤ 3 / 2 ^ 24 * n + 1 / 2 ^ 40 := by
    have a1 : |t.real * N.real - t.real * n| ≤ 1 / 2 ^ 24 * n := by
      rw [← mul_sub, abs_mul, abs_of_nonneg w3]; exact le_trans (mul_le_of_le_one_left (abs_nonneg _) w4) f3
    have a2 : N.real ≤ 2 * n := by have := (abs_le.1 f3).2; linarith
    have a3 : |(t.mul N).real - t.real * N.real| ≤ 2 / 2 ^ 24 * n + 1 / 2 ^ 40 := by refine le_trans m2 ?_; linarith
    clear m2 f3
    generalize t.real * N.real = A at *
    generalize t.real * n = B at *
    rw [abs_le] at *
    constructor <;> linarith
  generalize t.mul N = v at *
  have hvlt : v.real < 2 ^ 64 := by
    have := (abs_le.1 hvu).2
    have b : t.real * n ≤ n := mul_le_of_le_one_left n0 w4
    linarith
  have hvv : v.val < 2 ^ 64 * unit := by
    have := (@real_lt_iff v (2 ^ 64)).2 (by push_cast; exact hvlt)
    exact this
  have hu := unit_pos
  have hidx := toUnsigned_ok (bits := 64) m1 (by omega) hvv
  have k0 : 0 ≤ v.val / (unit : Int) := Int.ediv_nonneg v0 (by omega)
  have k3 : (((v.val / unit).toNat : Nat) : Int) = v.val / unit := Int.toNat_of_nonneg k0
  have k4 := Int.ediv_mul_le v.val (b := (unit : Int)) (by omega)
  have k5 := Int.lt_ediv_add_one_mul_self v.val (b := (unit : Int)) (by omega)
  rw [← k3] at k4 k5
  generalize (v.val / (unit : Int)).toNat = i at *
  have k6 := le_real_iff.1 k4
  have k7 := real_lt_iff.1 k5
  push_cast at k6 k7
  refine ⟨v, i, m1, k6, k7, hvu, ?_, ?_⟩
  · intro hi
    obtain ⟨i1, i2, i3⟩ := ofNat_real_err i (by omega)
    obtain ⟨x, hx⟩ : ∃ x, colors[i]? = some x := ⟨_, List.getElem?_eq_getElem (by omega)⟩
    obtain ⟨y, hy⟩ : ∃ y, colors[i + 1]? = some y := ⟨_, List.getElem?_eq_getElem (by omega)⟩
    have iq : (i : ℚ) ≤ n := by exact_mod_cast (by omega : i ≤ n)
    have i0 : (0 : ℚ) ≤ i := Nat.cast_nonneg i
    have b1 : |v.real - (F32.ofNat i).real| ≤ 1 + 1 / 2 ^ 24 * n := by
      rw [abs_le] at *
      constructor <;> linarith
    obtain ⟨s1, s2⟩ := real_sub' 64 (by decide) m1 i1 (by linarith)
    refine ⟨_, _, hx, hy, finite_notNan s1, ?_, ?_⟩
    · rw [hidx]
      exact spectrum_step (by omega) hx hy
    · have s3 : |(v.sub (F32.ofNat i)).real - (v.real - (F32.ofNat i).real)| ≤ 1 / 2 ^ 24 * (1 + 1 / 2 ^ 24 * n) :=
        le_trans s2 (mul_le_mul_of_nonneg_left b1 (by norm_num))
      clear s2 b1 hvu m2 f3
      rw [abs_le] at *
      constructor <;> linarith
  · intro hi
    rw [hidx]
    exact spectrum_end hi hlast

theorem spectrum_nan {value : F32} {colors : List Color} (h : value.isNan = true) (hne : colors ≠ []) : spectrum value colors = .ub := by
  cases colors with
  | nil => exact absurd rfl hne
  | cons a l =>
    unfold spectrum
    simp only
    have : (value.clamp01.mul (F32.ofNat ((a :: l).length - 1))).toUnsigned 64 = .ub := by
      unfold toUnsigned; simp [mul_nan_left _ (clamp01_nan h)]
    rw [this]; rfl

/-! ## NaN -/

theorem fromParts_nan {p : F32 × F32 × F32} {m : F32} (h : m.isNan = true ∨ p.2.2.isNan = true) : fromParts p m = .ub := by
  unfold fromParts
  rcases h with h | h
  · rw [toU8_nan (mul_nan_left _ (add_nan_right _ h))]; rfl
  · rw [toU8_nan (mul_nan_left (x := p.2.2.add m) _ (add_nan_left _ h))]
    rcases toU8_cases ((p.1.add m).mul c255) with ⟨c, e⟩ | e <;> rw [e]
    · rcases toU8_cases ((p.2.1.add m).mul c255) with ⟨c, e⟩ | e <;> rw [e] <;> rfl
    · rfl

theorem rgb_nan {c h : F32} (hh : h.isNan = true) : (rgbFromChromaHue c h).2.2.isNan = true := by
  have hp : (h.mul six).isNan = true := mul_nan_left _ hh
  have hl : ∀ y, (h.mul six).lt y = false := by intro y; unfold F32.lt; simp [hp]
  unfold rgbFromChromaHue
  simp only [hl, Bool.false_eq_true, if_false, hp, Bool.or_true, if_true]
  exact nan_isNan

theorem fromHSV_nan {h s v : F32} (hn : h.isNan = true ∨ s.isNan = true ∨ v.isNan = true) : fromHSV h s v = .ub := by
  unfold fromHSV
  apply fromParts_nan
  rcases hn with hn | hn | hn
  · exact Or.inr (rgb_nan (clamp01_nan hn))
  · exact Or.inl (sub_nan_right _ (mul_nan_right _ (clamp01_nan hn)))
  · exact Or.inl (sub_nan_left _ (clamp01_nan hn))

theorem fromHLS_nan {h l s : F32} (hn : h.isNan = true ∨ l.isNan = true ∨ s.isNan = true) : fromHLS h l s = .ub := by
  unfold fromHLS
  apply fromParts_nan
  rcases hn with hn | hn | hn
  · exact Or.inr (rgb_nan (clamp01_nan hn))
  · exact Or.inl (sub_nan_left _ (clamp01_nan hn))
  · exact Or.inl (sub_nan_right _ (div_nan_left _ (mul_nan_right _ (clamp01_nan hn))))

/-! ## Rainbow -/

theorem clamp01_idem {v : F32} (h : v.isNan = false) : v.clamp01.clamp01.real = v.clamp01.real := by
  obtain ⟨w1, w2, w3, w4⟩ := clamp01_real h
  rw [(clamp01_real (finite_notNan w1)).2.1]; unfold unitRange; rw [min_eq_left w4, max_eq_right w3]

/-- The pure hues. -/
def Pure (c : Color) : Prop := c.a = 255 ∧ ((c.r = 255 ∧ c.g = 0) ∨ (c.r = 255 ∧ c.b = 0) ∨ (c.g = 255 ∧ c.r = 0) ∨ (c.g = 255 ∧ c.b = 0) ∨ (c.b = 255 ∧ c.r = 0) ∨ (c.b = 255 ∧ c.g = 0))

theorem rainbow_pure {v : F32} {c : Color} (h : rainbow v = .ok c) : Pure c := by
  unfold rainbow fromHLS at h
  simp only at h
  have e1 : (one.sub ((two.mul ofHalf.clamp01).sub one).abs).mul one.clamp01 = one := by decide +kernel
  have e2 : ofHalf.clamp01.sub (one.div two) = F32.zero := by decide +kernel
  rw [e1, e2] at h
  have c1 : ((one.add F32.zero).mul c255).toU8 = .ok 255 := by decide +kernel
  have c0 : ((F32.zero.add F32.zero).mul c255).toU8 = .ok 0 := by decide +kernel
  unfold rgbFromChromaHue at h
  simp only at h
  generalize v.clamp01.clamp01.mul six = hp at h
  generalize (if one.isNan || hp.isNan then F32.nan
    else F32.pack false (F32.roundMag (Dbl.near (Dbl.ofMag one.magBits * Dbl.tent (Dbl.ofMag hp.magBits)) Dbl.one) (2 ^ 925))) = x at h
  rcases toU8_cases ((x.add F32.zero).mul c255) with ⟨n, e⟩ | e
  · split at h <;> [skip; (split at h <;> [skip; (split at h <;> [skip; (split at h <;> [skip; split at h])])])] <;>
      (unfold fromParts at h; simp only [c1, c0, e] at h; cases h; unfold Pure; simp)
  · exfalso
    split at h <;> [skip; (split at h <;> [skip; (split at h <;> [skip; (split at h <;> [skip; split at h])])])] <;>
      (unfold fromParts at h; simp only [c1, c0, e] at h; cases h)

end Color
end Verif
