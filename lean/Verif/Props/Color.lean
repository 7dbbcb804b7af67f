import Verif.Lemmas.Color8
/-!
# C60: colours

Floats are arbitrary bit patterns; `F32.real` is the number a float stands for, and the exact formulas are in Spec/Color.lean. `.ub` is
undefined behaviour.
-/

namespace Verif
open F32 ColorSpec

namespace Sample
/-- 0.1f -/
def tenth : F32 := 0x3DCCCCCD
/-- 0.48f -/
def w48 : F32 := 0x3EF5C28F
/-- 0.75f -/
def threeQuarters : F32 := 0x3F400000
def teal : Color := ⟨0, 128, 128, 255⟩
end Sample

/-! ## Blending -/

/-- Blending is defined for every weight but NaN (infinities included): each channel, also the alpha channel, is the linear interpolation with the
weight limited to `[0, 1]`, truncated. -/
theorem C60_blend (x y : Color) (weight : F32) (h : weight.isNan = false) :
    ∃ c, x.blend y weight = .ok c ∧ Truncates c.r (mix x.r.toNat y.r.toNat (unitRange weight.real)) ∧ Truncates c.g (mix x.g.toNat y.g.toNat (unitRange weight.real)) ∧
      Truncates c.b (mix x.b.toNat y.b.toNat (unitRange weight.real)) ∧ Truncates c.a (mix x.a.toNat y.a.toNat (unitRange weight.real)) :=
  Color.blend_trunc x y h

/-- Weights up to 0 give the first colour, weights from 1 the second one, exactly. -/
theorem C60_blend_ends (x y : Color) (weight : F32) (h : weight.isNan = false) :
    (weight.real ≤ 0 → x.blend y weight = .ok x) ∧ (1 ≤ weight.real → x.blend y weight = .ok y) :=
  ⟨Color.blend_zero x y h, Color.blend_one x y h⟩

/-- No channel of a blend exceeds both colours, and none is more than one step below both. -/
theorem C60_blend_between (x y c : Color) (weight : F32) (h : x.blend y weight = .ok c) :
    (min x.r.toNat y.r.toNat ≤ c.r.toNat + 1 ∧ c.r.toNat ≤ max x.r.toNat y.r.toNat) ∧ (min x.g.toNat y.g.toNat ≤ c.g.toNat + 1 ∧ c.g.toNat ≤ max x.g.toNat y.g.toNat) ∧
    (min x.b.toNat y.b.toNat ≤ c.b.toNat + 1 ∧ c.b.toNat ≤ max x.b.toNat y.b.toNat) ∧ (min x.a.toNat y.a.toNat ≤ c.a.toNat + 1 ∧ c.a.toNat ≤ max x.a.toNat y.a.toNat) := by
  cases hn : weight.isNan with
  | true => rw [Color.blend_nan x y hn] at h; cases h
  | false =>
    obtain ⟨c', k, k1, k2, k3, k4⟩ := Color.blend_trunc x y hn
    rw [k] at h
    cases h
    have hr := unitRange_range weight.real
    exact ⟨Color.mix_between hr.1 hr.2 k1, Color.mix_between hr.1 hr.2 k2, Color.mix_between hr.1 hr.2 k3, Color.mix_between hr.1 hr.2 k4⟩

/-- The lower bound is sharp: a colour blended with itself can come out one step darker, and more transparent. -/
theorem C60_blend_with_itself_differs : Sample.w48.isNan = false ∧ (⟨255, 0, 0, 255⟩ : Color).blend ⟨255, 0, 0, 255⟩ Sample.w48 = .ok ⟨254, 0, 0, 254⟩ ∧
    (⟨3, 3, 3, 255⟩ : Color).blend ⟨3, 3, 3, 255⟩ Sample.tenth = .ok ⟨2, 2, 2, 255⟩ := by decide +kernel

/-- A NaN weight is undefined behaviour for every pair of colours. -/
theorem C60_blend_nan (x y : Color) (weight : F32) (h : weight.isNan = true) : x.blend y weight = .ub := Color.blend_nan x y h

/-- `merge` is `blend`. -/
theorem C60_merge (x y : Color) (weight : F32) : x.merge y weight = x.blend y weight := rfl

example : Color.black.blend ⟨255, 255, 255, 255⟩ F32.ofHalf = .ok ⟨127, 127, 127, 255⟩ := by decide +kernel
example : Sample.tenth.isNan = false ∧ Color.black.blend Sample.teal Sample.tenth = .ok ⟨0, 12, 12, 255⟩ := by decide +kernel
example : F32.inf.isNan = false ∧ Color.black.blend Sample.teal F32.inf = .ok Sample.teal := by decide +kernel

/-! ## Hues -/

/-- `fromHSV` is defined for all arguments but NaN; it limits them to `[0, 1]` and computes the textbook conversion, truncated. -/
theorem C60_hsv (h s v : F32) (hh : h.isNan = false) (hs : s.isNan = false) (hv : v.isNan = false) :
    ∃ k, Color.fromHSV h s v = .ok k ∧ Truncates k.r (hsv (red (unitRange h.real)) (unitRange s.real) (unitRange v.real)) ∧
      Truncates k.g (hsv (green (unitRange h.real)) (unitRange s.real) (unitRange v.real)) ∧
      Truncates k.b (hsv (blue (unitRange h.real)) (unitRange s.real) (unitRange v.real)) ∧ k.a = 255 :=
  Color.fromHSV_ok hh hs hv

/-- `fromHLS`, likewise. -/
theorem C60_hls (h l s : F32) (hh : h.isNan = false) (hl : l.isNan = false) (hs : s.isNan = false) :
    ∃ k, Color.fromHLS h l s = .ok k ∧ Truncates k.r (hls (red (unitRange h.real)) (unitRange l.real) (unitRange s.real)) ∧
      Truncates k.g (hls (green (unitRange h.real)) (unitRange l.real) (unitRange s.real)) ∧
      Truncates k.b (hls (blue (unitRange h.real)) (unitRange l.real) (unitRange s.real)) ∧ k.a = 255 :=
  Color.fromHLS_ok hh hl hs

/-- The exact shares: the pure hues are at the sixths. -/
theorem C60_hues : (red 0 = 1 ∧ green 0 = 0 ∧ blue 0 = 0) ∧ (red (1 / 6) = 1 ∧ green (1 / 6) = 1 ∧ blue (1 / 6) = 0) ∧ (red (1 / 3) = 0 ∧ green (1 / 3) = 1 ∧ blue (1 / 3) = 0) ∧
    (red (1 / 2) = 0 ∧ green (1 / 2) = 1 ∧ blue (1 / 2) = 1) ∧ (red (2 / 3) = 0 ∧ green (2 / 3) = 0 ∧ blue (2 / 3) = 1) ∧ (red (5 / 6) = 1 ∧ green (5 / 6) = 0 ∧ blue (5 / 6) = 1) ∧
    (red 1 = 1 ∧ green 1 = 0 ∧ blue 1 = 0) := by
  unfold red green blue unitRange
  norm_num [abs_of_pos, abs_of_neg]

/-- A NaN anywhere is undefined behaviour. -/
theorem C60_hsv_nan (h s v : F32) (hn : h.isNan = true ∨ s.isNan = true ∨ v.isNan = true) : Color.fromHSV h s v = .ub := Color.fromHSV_nan hn
theorem C60_hls_nan (h l s : F32) (hn : h.isNan = true ∨ l.isNan = true ∨ s.isNan = true) : Color.fromHLS h l s = .ub := Color.fromHLS_nan hn

example : Color.fromHSV F32.zero F32.one F32.one = .ok ⟨255, 0, 0, 255⟩ ∧ Color.fromHSV F32.ofHalf F32.one F32.ofHalf = .ok ⟨0, 127, 127, 255⟩ := by decide +kernel
example : Color.fromHLS F32.ofHalf F32.ofHalf F32.one = .ok ⟨0, 255, 255, 255⟩ ∧ Color.fromHLS F32.zero F32.one F32.one = .ok ⟨255, 255, 255, 255⟩ := by decide +kernel
example : F32.nan.isNan = true ∧ Color.fromHSV F32.nan F32.one F32.one = .ub := by decide +kernel

/-! ## Colour maps -/

/-- `gray`: three equal channels, proportional to the limited value; brighter for larger values. -/
theorem C60_gray (v : F32) (h : v.isNan = false) :
    ∃ c, Color.gray v = .ok ⟨c, c, c, 255⟩ ∧ Truncates c (255 * unitRange v.real) ∧ (v.real ≤ 0 → c = 0) ∧ (1 ≤ v.real → c = 255) := by
  obtain ⟨c, k1, k2, k3⟩ := Color.gray_ok h
  refine ⟨c, k2, k3, ?_, ?_⟩
  · intro h0
    obtain ⟨w1, w2⟩ := Color.clamp01_low h h0
    obtain ⟨m1, m2⟩ := Color.mul_zero_any w1 c255_finite w2
    have := Color.toU8_exact (c := 0) m1 (by rw [m2]; simp)
    rw [this] at k1; cases k1; rfl
  · intro h0
    obtain ⟨w1, w2⟩ := Color.clamp01_high h h0
    have m1 := (mul_le_left c255_finite w1 (by decide +kernel) (by omega) (by omega)).1
    have m2 := mul_unit c255_finite w1 (by decide +kernel) w2
    rw [F32.mul_comm] at k1
    have := Color.toU8_exact (c := 255) m1 (by rw [m2, c255_unit]; rfl)
    rw [this] at k1; cases k1; rfl

theorem C60_gray_mono (v w : F32) (c d : UInt8) (h : v.isNan = false) (h' : w.isNan = false) (hle : v.real ≤ w.real)
    (hc : Color.gray v = .ok ⟨c, c, c, 255⟩) (hd : Color.gray w = .ok ⟨d, d, d, 255⟩) : c ≤ d := by
  obtain ⟨c', k1, k2, _⟩ := Color.gray_ok h
  obtain ⟨d', l1, l2, _⟩ := Color.gray_ok h'
  rw [k2] at hc
  rw [l2] at hd
  cases hc
  cases hd
  obtain ⟨v1, v2, v3, v4⟩ := clamp01_real h
  obtain ⟨w1, w2, w3, w4⟩ := clamp01_real h'
  have hle' : v.clamp01.val ≤ w.clamp01.val := by
    rw [real_le_real, v2, w2]; unfold unitRange; exact max_le_max_left _ (min_le_min_right _ hle)
  exact toU8_mono (mul_c255_mono v1 w1 (real_nonneg.2 v3) hle') k1 l1
    (mul_nonneg_val w1 c255_finite (real_nonneg.2 w3) (by decide +kernel)) (mul_nonneg_val v1 c255_finite (real_nonneg.2 v3) (by decide +kernel))

/-- `quality`: from red over yellow (at 1/2) to green. -/
theorem C60_quality (v : F32) (h : v.isNan = false) :
    ∃ c, (unitRange v.real ≤ 1 / 2 → Color.quality v = .ok ⟨255, c, 0, 255⟩ ∧ Truncates c (255 * (2 * unitRange v.real))) ∧
      (1 / 2 < unitRange v.real → Color.quality v = .ok ⟨c, 255, 0, 255⟩ ∧ Truncates c (255 * (2 * (1 - unitRange v.real)))) :=
  Color.quality_ok h

/-- A NaN is undefined behaviour. -/
theorem C60_gray_nan (v : F32) (h : v.isNan = true) : Color.gray v = .ub ∧ Color.quality v = .ub := by
  have hc := clamp01_nan h
  constructor
  · unfold Color.gray; rw [toU8_nan (mul_nan_left _ hc)]; rfl
  · unfold Color.quality
    have : F32.ofHalf.lt v.clamp01 = false := by unfold F32.lt; simp [hc]
    simp only [this, Bool.false_eq_true, if_false]
    rw [toU8_nan (mul_nan_left _ (mul_nan_left _ hc))]; rfl

example : Color.gray F32.ofHalf = .ok ⟨127, 127, 127, 255⟩ ∧ Color.quality F32.ofHalf = .ok ⟨255, 255, 0, 255⟩ ∧ Color.quality Sample.threeQuarters = .ok ⟨127, 255, 0, 255⟩ := by decide +kernel

/-- `c` is the colour at position `p` on the path through the colours of the list (0: the first one, 1: the second one, ...). -/
def ColorSpec.OnPath (colors : List Color) (p : ℚ) (c : Color) : Prop :=
  (∃ (i : Nat) (u : ℚ) (x y : Color), p = i + u ∧ 0 ≤ u ∧ u ≤ 1 ∧ colors[i]? = some x ∧ colors[i + 1]? = some y ∧ Truncates c.r (mix x.r.toNat y.r.toNat u) ∧
    Truncates c.g (mix x.g.toNat y.g.toNat u) ∧ Truncates c.b (mix x.b.toNat y.b.toNat u) ∧ Truncates c.a (mix x.a.toNat y.a.toNat u)) ∨
  (p = (colors.length - 1 : Nat) ∧ colors[colors.length - 1]? = some c)

/-- `spectrum`: the colour at the fraction `value` of the path through the colours; never out of range, for every list. -/
theorem C60_spectrum (value : F32) (colors : List Color) (h : value.isNan = false) (hne : colors ≠ []) (hlen : colors.length ≤ 2 ^ 63) :
    ∃ c p, Color.spectrum value colors = .ok c ∧ OnPath colors p c ∧ |p - unitRange value.real * (colors.length - 1 : Nat)| ≤ colors.length / 2 ^ 21 := by
  obtain ⟨v, i, v1, v2, v3, v4, v5, v6⟩ := Color.spectrum_ok h hne hlen
  have hpos : 0 < colors.length := List.length_pos_iff.2 hne
  have hL : (colors.length : ℚ) = ((colors.length - 1 : Nat) : ℚ) + 1 := by
    have : colors.length = (colors.length - 1) + 1 := by omega
    exact_mod_cast this
  have n0 : (0 : ℚ) ≤ ((colors.length - 1 : Nat) : ℚ) := Nat.cast_nonneg _
  by_cases hi : i < colors.length - 1
  · obtain ⟨x, y, hx, hy, hw, hs, he⟩ := v5 hi
    obtain ⟨c, k, k1, k2, k3, k4⟩ := Color.blend_trunc x y hw
    have hr := unitRange_range (v.sub (F32.ofNat i)).real
    refine ⟨c, i + unitRange (v.sub (F32.ofNat i)).real, by rw [hs]; exact k, Or.inl ⟨i, _, x, y, rfl, hr.1, hr.2, hx, hy, k1, k2, k3, k4⟩, ?_⟩
    have hl := unitRange_lip (v.sub (F32.ofNat i)).real (v.real - i)
    rw [Color.unitRange_id (q := v.real - i) (by linarith) (by linarith)] at hl
    have hl2 := le_trans hl he
    rw [hL]
    clear hl he
    generalize unitRange (v.sub (F32.ofNat i)).real = u at *
    generalize unitRange value.real * ((colors.length - 1 : Nat) : ℚ) = z at *
    rw [abs_le] at *
    constructor <;> linarith
  · refine ⟨colors.getLast hne, (colors.length - 1 : Nat), v6 (by omega), Or.inr ⟨rfl, by rw [List.getLast_eq_getElem, List.getElem?_eq_getElem]⟩, ?_⟩
    have hge : ((colors.length - 1 : Nat) : ℚ) ≤ i := by exact_mod_cast (by omega : colors.length - 1 ≤ i)
    have ht := unitRange_range value.real
    have hle : unitRange value.real * ((colors.length - 1 : Nat) : ℚ) ≤ ((colors.length - 1 : Nat) : ℚ) := mul_le_of_le_one_left n0 ht.2
    rw [hL]
    generalize unitRange value.real * ((colors.length - 1 : Nat) : ℚ) = z at *
    rw [abs_le] at *
    constructor <;> linarith

/-- Values up to 0 give the first colour, exactly; values from 1 the last one. -/
theorem C60_spectrum_ends (value : F32) (colors : List Color) (h : value.isNan = false) (hne : colors ≠ []) (hlen : colors.length ≤ 2 ^ 24) :
    (value.real ≤ 0 → Color.spectrum value colors = .ok (colors.head hne)) ∧ (1 ≤ value.real → Color.spectrum value colors = .ok (colors.getLast hne)) :=
  ⟨fun h0 => Color.spectrum_first h h0 hne (Nat.le_trans hlen (by decide)), fun h0 => Color.spectrum_last h h0 hne hlen⟩

/-- An empty list is black for every value, NaN included; a NaN on any other list is undefined behaviour. -/
theorem C60_spectrum_empty (value : F32) : Color.spectrum value [] = .ok ⟨0, 0, 0, 255⟩ := rfl
theorem C60_spectrum_nan (value : F32) (colors : List Color) (h : value.isNan = true) (hne : colors ≠ []) : Color.spectrum value colors = .ub := Color.spectrum_nan h hne

/-- `ironbow` is a spectrum. -/
theorem C60_ironbow (value : F32) (h : value.isNan = false) :
    ∃ c p, Color.ironbow value = .ok c ∧ OnPath [⟨0, 0, 0, 255⟩, ⟨145, 20, 145, 255⟩, ⟨255, 138, 0, 255⟩, ⟨255, 230, 40, 255⟩, ⟨255, 255, 255, 255⟩] p c ∧
      |p - 4 * unitRange value.real| ≤ 1 / 2 ^ 18 := by
  obtain ⟨c, p, h1, h2, h3⟩ := C60_spectrum value Color.ironbowColors h (by decide) (by decide)
  refine ⟨c, p, h1, h2, ?_⟩
  have e1 : Color.ironbowColors.length = 5 := rfl
  rw [e1] at h3
  push_cast at h3
  rw [_root_.mul_comm]
  refine le_trans h3 ?_
  norm_num

example : Color.ironbow Sample.threeQuarters = .ok ⟨255, 230, 40, 255⟩ ∧ Color.ironbow Sample.tenth = .ok ⟨58, 8, 58, 255⟩ := by decide +kernel

/-- `rainbow` runs once through the pure hues; one channel is full and another one is empty. -/
theorem C60_rainbow (value : F32) (h : value.isNan = false) :
    ∃ c, Color.rainbow value = .ok c ∧ Truncates c.r (255 * red (unitRange value.real)) ∧ Truncates c.g (255 * green (unitRange value.real)) ∧
      Truncates c.b (255 * blue (unitRange value.real)) ∧ c.a = 255 ∧
      ((c.r = 255 ∧ c.g = 0) ∨ (c.r = 255 ∧ c.b = 0) ∨ (c.g = 255 ∧ c.r = 0) ∨ (c.g = 255 ∧ c.b = 0) ∨ (c.b = 255 ∧ c.r = 0) ∨ (c.b = 255 ∧ c.g = 0)) := by
  obtain ⟨w1, w2, w3, w4⟩ := clamp01_real h
  obtain ⟨k, k1, k2, k3, k4, k5⟩ := Color.fromHLS_ok (h := value.clamp01) (l := F32.ofHalf) (s := F32.one) (finite_notNan w1) (finite_notNan half_is_finite) (finite_notNan one_finite)
  have hp := Color.rainbow_pure (v := value) (c := k) k1
  have e : ∀ w, hls w (unitRange F32.ofHalf.real) (unitRange F32.one.real) = 255 * w := by
    intro w
    rw [half_real, one_real, Color.unitRange_id (by norm_num) (by norm_num), Color.unitRange_id (by norm_num) (by norm_num)]
    unfold hls; norm_num
  rw [e, Color.unitRange_id (by rw [w2]; exact (unitRange_range _).1) w4, w2] at k2 k3 k4
  exact ⟨k, k1, k2, k3, k4, k5, hp.2⟩

/-- The colours of ids (whatever hue is chosen for each id) repeat: among the ids 0 to 1536 two have the same colour. -/
theorem C60_ids_repeat (hueOf : Nat → F32) (h : ∀ id, (hueOf id).isNan = false) :
    ∃ i j, i < j ∧ j ≤ 1536 ∧ ∃ c, Color.rainbowId hueOf i = .ok c ∧ Color.rainbowId hueOf j = .ok c := by
  have hc : ∀ id, ∃ c, Color.rainbowId hueOf id = .ok c ∧ Color.Pure c := by
    intro id
    obtain ⟨c, k, _⟩ := C60_rainbow (hueOf id) (h id)
    exact ⟨c, k, Color.rainbow_pure k⟩
  obtain ⟨i, j, h1, h2, h3⟩ := Color.two_alike (fun id => Classical.choose (hc id)) (fun id => (Classical.choose_spec (hc id)).2)
  refine ⟨i, j, h1, h2, _, (Classical.choose_spec (hc i)).1, ?_⟩
  have := (Classical.choose_spec (hc j)).1
  rw [h3]; exact this

example : ∀ id : Nat, ((fun n => if n % 2 = 0 then F32.zero else F32.ofHalf) id : F32).isNan = false := by
  intro id; simp only; split <;> decide +kernel
example : Color.rainbow F32.zero = .ok ⟨255, 0, 0, 255⟩ ∧ Color.rainbow Sample.threeQuarters = .ok ⟨127, 0, 255, 255⟩ := by decide +kernel

end Verif
