import Verif.Lemmas.Color5
/-! # Colours: conversions -/

set_option exponentiation.threshold 2000

namespace Verif
namespace Color
open F32 ColorSpec

theorem red_eq (h : ℚ) : red h = red6 (6 * h) := rfl
theorem green_eq (h : ℚ) : green h = green6 (6 * h) := rfl
theorem blue_eq (h : ℚ) : blue h = blue6 (6 * h) := rfl

/-- What a part of a colour must satisfy. -/
structure Part (a : F32) (e : ℚ) : Prop where
  fin : F32.finite a = true
  near : |a.real - e| ≤ 5 / 2 ^ 22

theorem part_of {a : F32} {C w w' g h : ℚ} (fin : F32.finite a = true) (c0 : 0 ≤ C) (c1 : C ≤ 1) (hg : |g - h| ≤ 1 / 2 ^ 21)
    (ha : |a.real - C * w| ≤ 1 / 2 ^ 22) (hl : |w - w'| ≤ |g - h|) : Part a (C * w') := by
  refine ⟨fin, ?_⟩
  have h1 : |C * w - C * w'| ≤ 1 / 2 ^ 21 := by
    rw [← mul_sub, abs_mul, abs_of_nonneg c0]
    exact le_trans (mul_le_of_le_one_left (abs_nonneg _) c1) (le_trans hl hg)
  rw [abs_le] at *
  constructor <;> norm_num at * <;> linarith

theorem full_part {a : F32} {C w w' g h : ℚ} (fin : F32.finite a = true) (c0 : 0 ≤ C) (c1 : C ≤ 1) (hg : |g - h| ≤ 1 / 2 ^ 21)
    (ha : a.real = C) (hw : w = 1) (hl : |w - w'| ≤ |g - h|) : Part a (C * w') :=
  part_of fin c0 c1 hg (w := w) (by rw [ha, hw, mul_one, sub_self, abs_zero]; norm_num) hl

theorem no_part {C w w' g h : ℚ} (c0 : 0 ≤ C) (c1 : C ≤ 1) (hg : |g - h| ≤ 1 / 2 ^ 21)
    (hw : w = 0) (hl : |w - w'| ≤ |g - h|) : Part F32.zero (C * w') :=
  part_of zero'_finite c0 c1 hg (w := w) (by rw [zero_real, hw, MulZeroClass.mul_zero, sub_self, abs_zero]; norm_num) hl

theorem some_part {a : F32} {C T w w' g h : ℚ} (fin : F32.finite a = true) (c0 : 0 ≤ C) (c1 : C ≤ 1) (hg : |g - h| ≤ 1 / 2 ^ 21)
    (ha : |a.real - C * T| ≤ 1 / 2 ^ 22) (hw : w = T) (hl : |w - w'| ≤ |g - h|) : Part a (C * w') :=
  part_of fin c0 c1 hg (w := w) (by rw [hw]; exact ha) hl

/-- The parts of a hue. -/
theorem hue_parts {chroma hue : F32} (hc : F32.finite chroma = true) (c0 : 0 ≤ chroma.real) (c1 : chroma.real ≤ 1)
    (hh : F32.finite hue = true) (h0 : 0 ≤ hue.real) (h1 : hue.real ≤ 1) :
    Part (rgbFromChromaHue chroma hue).1 (chroma.real * red hue.real) ∧ Part (rgbFromChromaHue chroma hue).2.1 (chroma.real * green hue.real) ∧
    Part (rgbFromChromaHue chroma hue).2.2 (chroma.real * blue hue.real) := by
  obtain ⟨hpf, hpe⟩ := real_mul hh six_finite (by rw [six_real, abs_of_nonneg (by linarith)]; norm_num; linarith)
  rw [six_real, abs_of_nonneg (show 0 ≤ hue.real * 6 by linarith)] at hpe
  have hp0 : 0 ≤ (hue.mul six).real := real_nonneg.1 (mul_nonneg_val hh six_finite (real_nonneg.2 h0) (by decide +kernel))
  unfold rgbFromChromaHue
  simp only [finite_notNan hc, finite_notNan hpf, Bool.or_self, Bool.false_eq_true, if_false]
  generalize hue.mul six = hp at *
  have hg : |hp.real - 6 * hue.real| ≤ 1 / 2 ^ 21 := by
    rw [_root_.mul_comm]; refine le_trans hpe ?_; norm_num; linarith
  have hp6 : hp.real ≤ 6 + 1 / 2 ^ 21 := by have := (abs_le.1 hg).2; linarith
  obtain ⟨x, e, xf, k, k1, k2, k3⟩ := tent_mul (c := chroma) (g := hp) c0 c1 hp0
  rw [← e]
  have hs := sextant hp0 hp6 k1 k2
  have lt_nat : ∀ n : Nat, n < 2 ^ 24 → ((hp.lt (F32.ofNat n) = true) ↔ hp.real < n) := by
    intro n hn
    rw [lt_iff (finite_notNan hpf) (finite_notNan (ofNat_small n hn).1), real_lt_real, ofNat_real n hn]
  rw [red_eq, green_eq, blue_eq]
  have lr := red6_lip hp.real (6 * hue.real)
  have lg := green6_lip hp.real (6 * hue.real)
  have lb := blue6_lip hp.real (6 * hue.real)
  split
  · rename_i l1; rw [lt_nat 1 (by decide)] at l1; push_cast at l1
    obtain ⟨a, b, c⟩ := hs.1 l1
    exact ⟨full_part hc c0 c1 hg rfl a lr, some_part xf c0 c1 hg k3 b lg, no_part c0 c1 hg c lb⟩
  rename_i l1; rw [lt_nat 1 (by decide)] at l1; push_cast at l1
  split
  · rename_i l2; rw [lt_nat 2 (by decide)] at l2; push_cast at l2
    obtain ⟨a, b, c⟩ := hs.2.1 (by linarith) l2
    exact ⟨some_part xf c0 c1 hg k3 a lr, full_part hc c0 c1 hg rfl b lg, no_part c0 c1 hg c lb⟩
  rename_i l2; rw [lt_nat 2 (by decide)] at l2; push_cast at l2
  split
  · rename_i l3; rw [lt_nat 3 (by decide)] at l3; push_cast at l3
    obtain ⟨a, b, c⟩ := hs.2.2.1 (by linarith) l3
    exact ⟨no_part c0 c1 hg a lr, full_part hc c0 c1 hg rfl b lg, some_part xf c0 c1 hg k3 c lb⟩
  rename_i l3; rw [lt_nat 3 (by decide)] at l3; push_cast at l3
  split
  · rename_i l4; rw [lt_nat 4 (by decide)] at l4; push_cast at l4
    obtain ⟨a, b, c⟩ := hs.2.2.2.1 (by linarith) l4
    exact ⟨no_part c0 c1 hg a lr, some_part xf c0 c1 hg k3 b lg, full_part hc c0 c1 hg rfl c lb⟩
  rename_i l4; rw [lt_nat 4 (by decide)] at l4; push_cast at l4
  split
  · rename_i l5; rw [lt_nat 5 (by decide)] at l5; push_cast at l5
    obtain ⟨a, b, c⟩ := hs.2.2.2.2.1 (by linarith) l5
    exact ⟨some_part xf c0 c1 hg k3 a lr, no_part c0 c1 hg b lg, full_part hc c0 c1 hg rfl c lb⟩
  rename_i l5; rw [lt_nat 5 (by decide)] at l5; push_cast at l5
  obtain ⟨a, b, c⟩ := hs.2.2.2.2.2 (by linarith)
  refine ⟨full_part hc c0 c1 hg rfl a lr, no_part c0 c1 hg b lg, xf, ?_⟩
  have d1 : |chroma.real * blue6 hp.real - chroma.real * blue6 (6 * hue.real)| ≤ 6 * (1 / 2 ^ 24) + 1 / 2 ^ 40 := by
    rw [← mul_sub, abs_mul, abs_of_nonneg c0]
    refine le_trans (mul_le_of_le_one_left (abs_nonneg _) c1) (le_trans lb ?_)
    rw [_root_.mul_comm]; refine le_trans hpe ?_; linarith
  have d2 : |chroma.real * blue6 hp.real - chroma.real * (1 - |hp.real - 2 * k - 1|)| ≤ 1 / 2 ^ 21 := by
    rw [← mul_sub, abs_mul, abs_of_nonneg c0]
    exact le_trans (mul_le_of_le_one_left (abs_nonneg _) c1) c
  generalize chroma.real * blue6 hp.real = A at *
  generalize chroma.real * blue6 (6 * hue.real) = B at *
  generalize chroma.real * (1 - |hp.real - 2 * k - 1|) = D at *
  clear e hs lr lg lb lt_nat a b c
  rw [abs_le] at k3 d1 d2 ⊢
  constructor <;> norm_num at * <;> linarith

/-- `(c + m) * 255`, truncated. -/
theorem channel_ok {a m : F32} {p q : ℚ} (fa : F32.finite a = true) (ha : |a.real - p| ≤ 1 / 2 ^ 19) (hm : F32.finite m = true) (hq : |m.real - q| ≤ 1 / 2 ^ 21) (h0 : 0 ≤ p + q) (h1 : p + q ≤ 1) :
    ∃ c : UInt8, ((a.add m).mul c255).toU8 = .ok c ∧ Truncates c (255 * (p + q)) := by
  have hs : |a.real + m.real - (p + q)| ≤ 5 / 2 ^ 21 := by
    have := abs_add_le (a.real - p) (m.real - q)
    have e : a.real - p + (m.real - q) = a.real + m.real - (p + q) := by ring
    rw [e] at this
    norm_num at *; linarith
  have hs1 : |a.real + m.real| ≤ 2 := by
    rw [abs_le] at *
    constructor <;> norm_num at * <;> linarith
  obtain ⟨f1, f2⟩ := real_add fa hm (by norm_num; linarith)
  have g1 : |(a.add m).real - (p + q)| ≤ 6 / 2 ^ 21 := by
    have f3 := le_trans f2 (mul_le_mul_of_nonneg_left hs1 (by norm_num))
    clear f2
    rw [abs_le] at *
    constructor <;> norm_num at * <;> linarith
  have g2 : |(a.add m).real * c255.real| ≤ 2 ^ 9 := by
    rw [c255_real]; rw [abs_le] at *
    constructor <;> norm_num at * <;> linarith
  obtain ⟨m1, m2⟩ := real_mul f1 c255_finite (le_trans g2 (by norm_num))
  apply real_toU8 m1
  · rw [c255_real] at m2 g2
    generalize ((a.add m).mul c255).real = X at *
    generalize (a.add m).real = S at *
    clear f2 hs hs1
    have : |X - S * 255| ≤ 1 / 2 ^ 14 := by norm_num at *; linarith
    rw [abs_le] at *
    constructor <;> norm_num at * <;> linarith
  · linarith
  · linarith

theorem fromParts_ok {p : F32 × F32 × F32} {m : F32} {C C' x y z q : ℚ} (hr : Part p.1 (C' * x)) (hg : Part p.2.1 (C' * y)) (hb : Part p.2.2 (C' * z))
    (hC : |C' - C| ≤ 6 / 2 ^ 24) (hx : 0 ≤ x ∧ x ≤ 1) (hy : 0 ≤ y ∧ y ≤ 1) (hz : 0 ≤ z ∧ z ≤ 1) (hm : F32.finite m = true) (hq : |m.real - q| ≤ 1 / 2 ^ 21)
    (C0 : 0 ≤ C) (q0 : 0 ≤ q) (q1 : C + q ≤ 1) :
    ∃ k, fromParts p m = .ok k ∧ Truncates k.r (255 * (C * x + q)) ∧ Truncates k.g (255 * (C * y + q)) ∧ Truncates k.b (255 * (C * z + q)) ∧ k.a = 255 := by
  have ch : ∀ (a : F32) (w : ℚ), Part a (C' * w) → 0 ≤ w ∧ w ≤ 1 → ∃ c : UInt8, ((a.add m).mul c255).toU8 = .ok c ∧ Truncates c (255 * (C * w + q)) := by
    intro a w ha hw
    have h1 : |C' * w - C * w| ≤ 6 / 2 ^ 24 := by
      rw [← sub_mul, abs_mul, abs_of_nonneg hw.1]
      exact le_trans (mul_le_of_le_one_right (abs_nonneg _) hw.2) hC
    have h2 : |a.real - C * w| ≤ 1 / 2 ^ 19 := by
      have := ha.near
      rw [abs_le] at *
      constructor <;> norm_num at * <;> linarith
    have h3 : 0 ≤ C * w := mul_nonneg C0 hw.1
    have h4 : C * w ≤ C := mul_le_of_le_one_right C0 hw.2
    exact channel_ok ha.fin h2 hm hq (by linarith) (by linarith)
  obtain ⟨x, x1, x2⟩ := ch _ _ hr hx
  obtain ⟨y, y1, y2⟩ := ch _ _ hg hy
  obtain ⟨z, z1, z2⟩ := ch _ _ hb hz
  refine ⟨⟨x, y, z, 255⟩, ?_, x2, y2, z2, rfl⟩
  unfold fromParts; rw [x1, y1, z1]; rfl

theorem fromHSV_ok {h s v : F32} (hh : h.isNan = false) (hs : s.isNan = false) (hv : v.isNan = false) :
    ∃ k, fromHSV h s v = .ok k ∧ Truncates k.r (hsv (red (unitRange h.real)) (unitRange s.real) (unitRange v.real)) ∧
      Truncates k.g (hsv (green (unitRange h.real)) (unitRange s.real) (unitRange v.real)) ∧
      Truncates k.b (hsv (blue (unitRange h.real)) (unitRange s.real) (unitRange v.real)) ∧ k.a = 255 := by
  obtain ⟨h1, h2, h3, h4⟩ := clamp01_real hh
  obtain ⟨s1, s2, s3, s4⟩ := clamp01_real hs
  obtain ⟨v1, v2, v3, v4⟩ := clamp01_real hv
  rw [← h2, ← s2, ← v2]
  unfold fromHSV
  simp only
  generalize h.clamp01 = h at *
  generalize s.clamp01 = s at *
  generalize v.clamp01 = v at *
  have p0 : 0 ≤ v.real * s.real := mul_nonneg v3 s3
  have p1 : v.real * s.real ≤ v.real := mul_le_of_le_one_right v3 s4
  obtain ⟨cf, c0, c1⟩ := mul_le_left v1 s1 (real_nonneg.2 v3) (real_nonneg.2 s3) (real_le_one.2 s4)
  rw [real_nonneg] at c0
  rw [real_le_real] at c1
  obtain ⟨_, ce⟩ := real_mul v1 s1 (by rw [abs_of_nonneg p0]; norm_num; linarith)
  rw [abs_of_nonneg p0] at ce
  have hC : |(v.mul s).real - v.real * s.real| ≤ 2 / 2 ^ 24 := by refine le_trans ce ?_; norm_num; linarith
  generalize v.mul s = c at *
  have d0 : 0 ≤ v.real - c.real := by linarith
  obtain ⟨mf, me⟩ := real_sub v1 cf (by rw [abs_of_nonneg d0]; norm_num; linarith)
  rw [abs_of_nonneg d0] at me
  obtain ⟨pr, pg, pb⟩ := hue_parts cf c0 (by linarith) h1 h3 h4
  have hq : |(v.sub c).real - (v.real - v.real * s.real)| ≤ 1 / 2 ^ 21 := by
    have : |(v.sub c).real - (v.real - c.real)| ≤ 1 / 2 ^ 24 := by refine le_trans me ?_; norm_num; linarith
    clear me ce
    generalize (v.sub c).real = m at *
    generalize v.real * s.real = e at *
    rw [abs_le] at *
    constructor <;> norm_num at * <;> linarith
  obtain ⟨k, k1, k2, k3, k4, k5⟩ := fromParts_ok pr pg pb (le_trans hC (by norm_num)) (unitRange_range _) (unitRange_range _) (unitRange_range _) mf hq p0 (by linarith) (by linarith)
  have e : ∀ w, 255 * (v.real * s.real * w + (v.real - v.real * s.real)) = hsv w s.real v.real := by intro w; unfold hsv; ring
  rw [e] at k2 k3 k4
  exact ⟨k, k1, k2, k3, k4, k5⟩

/-- Half of an ordinary number. -/
theorem real_half {c : F32} (cf : F32.finite c = true) (c0 : 0 ≤ c.real) : F32.finite (c.div two) = true ∧ |(c.div two).real - c.real / 2| ≤ 1 / 2 ^ 40 := by
  refine ⟨half_finite cf, ?_⟩
  obtain ⟨_, _, h3⟩ := half_val cf
  have hb := hf_bound (b := c.magBits) (by have := (finite_mag c).1 cf; omega)
  have hv := real_nonneg.2 c0
  have e1 : ((magVal c.magBits : Nat) : Int) = c.val := by rw [← natAbs_val]; omega
  have hval : 2 * c.half.val ≤ c.val + 1 ∧ c.val ≤ 2 * c.half.val + 1 := by
    rw [h3]
    split
    · rename_i hn
      have : c.val = 0 := by have := val_eq_mag c; rw [hn] at this; simp only [if_true] at this; omega
      omega
    · omega
  have e2 : c.div two = c.half := rfl
  rw [e2, real_eq, real_eq]
  have q1 : (2 * c.half.val : ℚ) ≤ c.val + 1 := by exact_mod_cast hval.1
  have q2 : (c.val : ℚ) ≤ 2 * c.half.val + 1 := by exact_mod_cast hval.2
  have e3 : (c.half.val : ℚ) / unit - (c.val : ℚ) / unit / 2 = ((c.half.val : ℚ) - c.val / 2) / unit := by ring
  have hu : (2 : ℚ) ^ 40 ≤ unit := by exact_mod_cast unit_big
  rw [e3, abs_div, abs_of_pos unitQ_pos, div_le_iff₀ unitQ_pos]
  have : (1 : ℚ) ≤ 1 / 2 ^ 40 * unit := by rw [div_mul_eq_mul_div, one_mul, le_div_iff₀ (by norm_num), one_mul]; exact hu
  rw [abs_le]
  constructor <;> linarith

theorem abs_real (x : F32) : x.abs.real = |x.real| := by
  rw [real_eq, real_eq, abs_val, abs_div, abs_of_pos unitQ_pos]
  congr 1
  rw [Int.natCast_natAbs]; push_cast; rfl

theorem fromHLS_ok {h l s : F32} (hh : h.isNan = false) (hl : l.isNan = false) (hs : s.isNan = false) :
    ∃ k, fromHLS h l s = .ok k ∧ Truncates k.r (hls (red (unitRange h.real)) (unitRange l.real) (unitRange s.real)) ∧
      Truncates k.g (hls (green (unitRange h.real)) (unitRange l.real) (unitRange s.real)) ∧
      Truncates k.b (hls (blue (unitRange h.real)) (unitRange l.real) (unitRange s.real)) ∧ k.a = 255 := by
  obtain ⟨h1, h2, h3, h4⟩ := clamp01_real hh
  obtain ⟨s1, s2, s3, s4⟩ := clamp01_real hs
  obtain ⟨l1, l2, l3, l4⟩ := clamp01_real hl
  rw [← h2, ← s2, ← l2]
  unfold fromHLS
  simp only
  generalize h.clamp01 = h at *
  generalize s.clamp01 = s at *
  generalize l.clamp01 = l at *
  -- 2 l
  obtain ⟨t1, t2⟩ := real_mul two_finite l1 (by rw [two_real, abs_of_nonneg (by linarith)]; norm_num; linarith)
  rw [two_real, abs_of_nonneg (show 0 ≤ 2 * l.real by linarith)] at t2
  have t3 : |(two.mul l).real - 2 * l.real| ≤ 2 / 2 ^ 24 + 1 / 2 ^ 40 := by refine le_trans t2 ?_; norm_num; linarith
  have t4 : 0 ≤ (two.mul l).val ∧ (two.mul l).val ≤ 2 * unit := by
    refine ⟨mul_nonneg_val two_finite l1 (by decide +kernel) (real_nonneg.2 l3), ?_⟩
    have := (mul_le_left two_finite l1 (by decide +kernel) (real_nonneg.2 l3) (real_le_one.2 l4)).2.2
    rwa [two_unit] at this
  generalize two.mul l = t at *
  -- 2 l - 1
  have hub := unit_big
  obtain ⟨d1, d2, _⟩ := sub_close t1 one_finite (by rw [one_unit]; omega)
  rw [one_unit] at d2
  have d4 : (t.sub one).val ≤ unit ∧ -(unit : Int) ≤ (t.sub one).val := by
    have hu := fl_unit 1 (by decide)
    rw [Int.mul_one] at hu
    have hn : fl (-(unit : Int)) = -(unit : Int) := by rw [fl_neg, hu]
    rw [d2]
    exact ⟨Int.le_trans (fl_mono (by omega)) (Int.le_of_eq hu), Int.le_trans (Int.le_of_eq hn.symm) (fl_mono (by omega))⟩
  have t5 : |t.real - 1| ≤ 1 := by
    have a := real_nonneg.1 t4.1
    have b := (@real_le_iff t 2).1 t4.2
    push_cast at b
    rw [abs_le]; constructor <;> linarith
  obtain ⟨_, d5⟩ := real_sub t1 one_finite (by rw [one_real]; norm_num; linarith)
  rw [one_real] at d5
  have d6 : |(t.sub one).real - (t.real - 1)| ≤ 1 / 2 ^ 24 := by refine le_trans d5 ?_; norm_num; linarith
  have d7 : |(t.sub one).real| ≤ 1 := by
    have a := (@real_le_iff (t.sub one) 1).1 (by rw [Int.one_mul]; exact d4.1)
    have b := (@le_real_iff (t.sub one) (-1)).1 (by have := d4.2; omega)
    push_cast at a b
    rw [abs_le]; exact ⟨b, a⟩
  have dd := abs_finite d1
  have da : (t.sub one).abs.real = |(t.sub one).real| := abs_real _
  have d8 : abs (|(t.sub one).real| - |2 * l.real - 1|) ≤ 3 / 2 ^ 24 + 1 / 2 ^ 40 := by
    refine le_trans (abs_abs_sub_abs_le_abs_sub _ _) ?_
    clear da d5 t2
    rw [abs_le] at *
    constructor <;> norm_num at * <;> linarith
  clear d2 d4 d5 d6 d1
  have D0 := abs_nonneg (t.sub one).real
  generalize (t.sub one).abs = d at *
  rw [← da] at d7 d8 D0
  clear da
  -- 1 - |2 l - 1|
  have hL : |2 * l.real - 1| ≤ 1 := by rw [abs_le]; constructor <;> linarith
  obtain ⟨e1, e2, _⟩ := sub_close one_finite dd (by
    rw [one_unit]
    have := real_nonneg.2 D0
    have := real_le_one.2 d7
    omega)
  rw [one_unit] at e2
  have e0 : 0 ≤ (one.sub d).real := by
    rw [← real_nonneg, e2]; have := real_le_one.2 d7; exact fl_nonneg (by omega)
  have e4 : (one.sub d).real ≤ 1 := by
    rw [← real_le_one, e2]
    have hu := fl_unit 1 (by decide)
    rw [Int.mul_one] at hu
    have := real_nonneg.2 D0
    exact Int.le_trans (fl_mono (by omega)) (Int.le_of_eq hu)
  obtain ⟨_, e5⟩ := real_sub one_finite dd (by rw [one_real, abs_of_nonneg (by linarith)]; norm_num; linarith)
  rw [one_real, abs_of_nonneg (show 0 ≤ 1 - d.real by linarith)] at e5
  have e6 : |(one.sub d).real - (1 - |2 * l.real - 1|)| ≤ 4 / 2 ^ 24 + 1 / 2 ^ 40 := by
    have : |(one.sub d).real - (1 - d.real)| ≤ 1 / 2 ^ 24 := by refine le_trans e5 ?_; norm_num; linarith
    clear e5 t3 t5 t2
    generalize |2 * l.real - 1| = A at *
    rw [abs_le] at *
    constructor <;> norm_num at * <;> linarith
  clear e2 e5 d8 t3 t2 t5
  generalize one.sub d = e at *
  -- chroma
  obtain ⟨cf, c0, c1⟩ := mul_le_left e1 s1 (real_nonneg.2 e0) (real_nonneg.2 s3) (real_le_one.2 s4)
  rw [real_nonneg] at c0
  rw [real_le_real] at c1
  have p0 : 0 ≤ e.real * s.real := mul_nonneg e0 s3
  have p1 : e.real * s.real ≤ e.real := mul_le_of_le_one_right e0 s4
  obtain ⟨_, ce⟩ := real_mul e1 s1 (by rw [abs_of_nonneg p0]; norm_num; linarith)
  rw [abs_of_nonneg p0] at ce
  have cE : |(e.mul s).real - e.real * s.real| ≤ 1 / 2 ^ 24 + 1 / 2 ^ 40 := by refine le_trans ce ?_; norm_num; linarith
  have eE : |e.real * s.real - (1 - |2 * l.real - 1|) * s.real| ≤ 4 / 2 ^ 24 + 1 / 2 ^ 40 := by
    rw [← sub_mul, abs_mul, abs_of_nonneg s3]
    exact le_trans (mul_le_of_le_one_right (abs_nonneg _) s4) e6
  have hC : |(e.mul s).real - (1 - |2 * l.real - 1|) * s.real| ≤ 6 / 2 ^ 24 := by
    generalize (1 - |2 * l.real - 1|) * s.real = Z at *
    clear ce e6 hL d7
    rw [abs_le] at *
    constructor <;> norm_num at * <;> linarith
  clear ce cE eE
  generalize e.mul s = c at *
  have C0 : 0 ≤ (1 - |2 * l.real - 1|) * s.real := mul_nonneg (by linarith) s3
  have C1 : (1 - |2 * l.real - 1|) * s.real ≤ 1 - |2 * l.real - 1| := mul_le_of_le_one_right (by linarith) s4
  have CL : 1 - |2 * l.real - 1| ≤ 2 * l.real ∧ 1 - |2 * l.real - 1| ≤ 2 - 2 * l.real := by
    rcases abs_cases (2 * l.real - 1) with ⟨e, h⟩ | ⟨e, h⟩ <;> rw [e] <;> constructor <;> linarith
  obtain ⟨g1, g2⟩ := real_half cf c0
  have c2 : c.real ≤ 1 := by linarith
  have g3 : |l.real - (c.div two).real| ≤ 2 := by
    clear hC
    rw [abs_le] at *
    constructor <;> norm_num at * <;> linarith
  obtain ⟨mf, me⟩ := real_sub l1 g1 (by norm_num; linarith)
  obtain ⟨pr, pg, pb⟩ := hue_parts cf c0 c2 h1 h3 h4
  have hq : |(l.sub (c.div two)).real - (l.real - (1 - |2 * l.real - 1|) * s.real / 2)| ≤ 1 / 2 ^ 21 := by
    have : |(l.sub (c.div two)).real - (l.real - (c.div two).real)| ≤ 2 / 2 ^ 24 := by refine le_trans me ?_; norm_num; linarith
    clear me C1 CL
    generalize (1 - |2 * l.real - 1|) * s.real = Z at *
    clear hL d7 e6 g3
    rw [abs_le] at *
    constructor <;> norm_num at * <;> linarith
  obtain ⟨k, k1, k2, k3, k4, k5⟩ := fromParts_ok pr pg pb hC (unitRange_range _) (unitRange_range _) (unitRange_range _) mf hq C0 (by linarith) (by linarith)
  have ee : ∀ w, 255 * ((1 - |2 * l.real - 1|) * s.real * w + (l.real - (1 - |2 * l.real - 1|) * s.real / 2)) = hls w l.real s.real := by intro w; unfold hls; ring
  rw [ee] at k2 k3 k4
  exact ⟨k, k1, k2, k3, k4, k5⟩

end Color
end Verif
