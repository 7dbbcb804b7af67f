import Verif.Lemmas.Color7
/-! # Colours: the ends of a spectrum, and the colours of the rainbow -/

set_option exponentiation.threshold 2000

namespace Verif
namespace Color
open F32 ColorSpec

theorem unitRange_low {q : ℚ} (h : q ≤ 0) : unitRange q = 0 := by
  unfold unitRange; rw [max_eq_left]; exact le_trans (min_le_left _ _) h
theorem unitRange_high {q : ℚ} (h : 1 ≤ q) : unitRange q = 1 := by
  unfold unitRange; rw [min_eq_right h]; exact max_eq_right (by norm_num)
theorem unitRange_id {q : ℚ} (h0 : 0 ≤ q) (h1 : q ≤ 1) : unitRange q = q := by
  unfold unitRange; rw [min_eq_left h1, max_eq_right h0]

theorem clamp01_low {v : F32} (h : v.isNan = false) (h0 : v.real ≤ 0) : F32.finite v.clamp01 = true ∧ v.clamp01.val = 0 := by
  obtain ⟨w1, w2, _, _⟩ := clamp01_real h
  rw [unitRange_low h0] at w2
  have h2 := val_real v.clamp01
  rw [w2, zero_mul] at h2
  exact ⟨w1, by exact_mod_cast h2⟩

theorem clamp01_high {v : F32} (h : v.isNan = false) (h0 : 1 ≤ v.real) : F32.finite v.clamp01 = true ∧ v.clamp01.val = unit := by
  obtain ⟨w1, w2, _, _⟩ := clamp01_real h
  rw [unitRange_high h0] at w2
  have h2 := val_real v.clamp01
  rw [w2, one_mul] at h2
  exact ⟨w1, by exact_mod_cast h2⟩

theorem mul_zero_any {x y : F32} (hx : F32.finite x = true) (hy : F32.finite y = true) (h : x.val = 0) : F32.finite (x.mul y) = true ∧ (x.mul y).val = 0 := by
  obtain ⟨h1, h2⟩ := mul_natAbs hx hy
  have h3 : magVal (roundMag 0 unit) = 0 := by decide +kernel
  rw [h, Int.natAbs_zero, Nat.zero_mul, h3] at h2
  have h4 : (x.mul y).val = 0 := by rw [h2]; split <;> rfl
  refine ⟨(finite_iff_val h1).2 ?_, h4⟩
  rw [h4]; decide +kernel

theorem spectrum_form (value : F32) {colors : List Color} (hne : colors ≠ []) : spectrum value colors = (do
      let index ← (value.clamp01.mul (F32.ofNat (colors.length - 1))).toUnsigned 64
      if colors.length - 1 ≤ index then Res.at? colors[colors.length - 1]?
      else do
        let x ← Res.at? colors[index]?
        let y ← Res.at? colors[index + 1]?
        x.blend y ((value.clamp01.mul (F32.ofNat (colors.length - 1))).sub (F32.ofNat index))) := by
  cases colors with
  | nil => exact absurd rfl hne
  | cons a l => rfl

theorem spectrum_first {value : F32} {colors : List Color} (h : value.isNan = false) (h0 : value.real ≤ 0) (hne : colors ≠ []) (hlen : colors.length ≤ 2 ^ 63) :
    spectrum value colors = .ok (colors.head hne) := by
  obtain ⟨w1, w2⟩ := clamp01_low h h0
  obtain ⟨f1, _, _⟩ := ofNat_real_err (colors.length - 1) (by omega)
  obtain ⟨m1, m2⟩ := mul_zero_any w1 f1 w2
  rw [spectrum_form value hne]
  generalize hv : value.clamp01.mul (F32.ofNat (colors.length - 1)) = v at *
  have hu := unit_pos
  have hidx := toUnsigned_ok (bits := 64) m1 (by omega) (by rw [m2]; exact Int.mul_pos (by decide) (by omega))
  rw [m2, Int.zero_ediv, Int.toNat_zero] at hidx
  rw [hidx]
  have hhead : colors[0]? = some (colors.head hne) := by cases colors with | nil => exact absurd rfl hne | cons a l => rfl
  by_cases hn : colors.length - 1 ≤ 0
  · have : colors.length - 1 = 0 := by omega
    rw [this]
    exact spectrum_end (Nat.le_refl _) hhead
  · obtain ⟨y, hy⟩ : ∃ y, colors[0 + 1]? = some y := ⟨_, List.getElem?_eq_getElem (by omega)⟩
    refine Eq.trans (spectrum_step (f := fun i => v.sub (F32.ofNat i)) hn hhead hy) ?_
    obtain ⟨z1, z2⟩ := ofNat_small 0 (by decide)
    have hs := sub_close m1 z1 (by rw [m2, z2]; simp)
    apply blend_zero _ _ (finite_notNan hs.1)
    have e : (v.sub (F32.ofNat 0)).val = 0 := by rw [hs.2.1, m2, z2]; simp
    rw [real_eq, e]; simp

theorem spectrum_last {value : F32} {colors : List Color} (h : value.isNan = false) (h0 : 1 ≤ value.real) (hne : colors ≠ []) (hlen : colors.length ≤ 2 ^ 24) :
    spectrum value colors = .ok (colors.getLast hne) := by
  obtain ⟨w1, w2⟩ := clamp01_high h h0
  have hpos : 0 < colors.length := List.length_pos_iff.2 hne
  obtain ⟨f1, f2⟩ := ofNat_small (colors.length - 1) (by omega)
  have hu := unit_pos
  have hnn : 0 ≤ (F32.ofNat (colors.length - 1)).val := by rw [f2]; exact Int.mul_nonneg (by omega) (by omega)
  have m1 := (mul_le_left f1 w1 hnn (by omega) (by omega)).1
  have m2 := mul_unit f1 w1 hnn w2
  rw [f2] at m2
  rw [spectrum_form value hne, F32.mul_comm]
  generalize (F32.ofNat (colors.length - 1)).mul value.clamp01 = v at *
  have hlt : ((colors.length - 1 : Nat) : Int) * unit < 2 ^ 64 * unit := Int.mul_lt_mul_of_pos_right (by omega) (by omega)
  have hidx := toUnsigned_ok (bits := 64) m1 (by rw [m2, ← f2]; omega) (by rw [m2]; exact hlt)
  rw [m2, Int.mul_ediv_cancel _ (by omega), Int.toNat_natCast] at hidx
  rw [hidx]
  have hlast : colors[colors.length - 1]? = some (colors.getLast hne) := by
    rw [List.getLast_eq_getElem, List.getElem?_eq_getElem]
  exact spectrum_end (Nat.le_refl _) hlast

/-- All colours with one channel full and another one empty. -/
def palette : List Color :=
  (List.range 256).flatMap fun n =>
    [⟨255, 0, UInt8.ofNat n, 255⟩, ⟨255, UInt8.ofNat n, 0, 255⟩, ⟨0, 255, UInt8.ofNat n, 255⟩, ⟨UInt8.ofNat n, 255, 0, 255⟩, ⟨0, UInt8.ofNat n, 255, 255⟩, ⟨UInt8.ofNat n, 0, 255, 255⟩]

theorem palette_length : palette.length = 1536 := by decide +kernel

theorem mem_palette {c : Color} (h : Pure c) : c ∈ palette := by
  obtain ⟨r, g, b, a⟩ := c
  obtain ⟨ha, h⟩ := h
  simp only at ha h
  subst ha
  unfold palette
  rw [List.mem_flatMap]
  rcases h with ⟨rfl, rfl⟩ | ⟨rfl, rfl⟩ | ⟨rfl, rfl⟩ | ⟨rfl, rfl⟩ | ⟨rfl, rfl⟩ | ⟨rfl, rfl⟩
  · exact ⟨b.toNat, List.mem_range.2 b.toNat_lt, by simp⟩
  · exact ⟨g.toNat, List.mem_range.2 g.toNat_lt, by simp⟩
  · exact ⟨b.toNat, List.mem_range.2 b.toNat_lt, by simp⟩
  · exact ⟨r.toNat, List.mem_range.2 r.toNat_lt, by simp⟩
  · exact ⟨g.toNat, List.mem_range.2 g.toNat_lt, by simp⟩
  · exact ⟨r.toNat, List.mem_range.2 r.toNat_lt, by simp⟩

theorem le_of_subset_nodup {α : Type} [DecidableEq α] : ∀ {l m : List α}, l.Nodup → (∀ x ∈ l, x ∈ m) → l.length ≤ m.length := by
  intro l
  induction l with
  | nil => intro m _ _; exact Nat.zero_le _
  | cons a l ih =>
    intro m hn hs
    rw [List.nodup_cons] at hn
    have ha := hs a (List.mem_cons_self)
    have := ih (m := m.erase a) hn.2 (by
      intro x hx
      rw [List.mem_erase_of_ne (by intro e; subst e; exact hn.1 hx)]
      exact hs x (List.mem_cons_of_mem _ hx))
    rw [List.length_erase_of_mem ha] at this
    have := List.length_pos_of_mem ha
    simp only [List.length_cons]; omega

/-- Pigeonhole. -/
theorem two_alike (f : Nat → Color) (h : ∀ i, Pure (f i)) : ∃ i j, i < j ∧ j ≤ 1536 ∧ f i = f j := by
  apply Classical.byContradiction
  intro hno
  have hn : ((List.range 1537).map f).Nodup := by
    rw [List.Nodup, List.pairwise_map]
    refine List.Pairwise.imp_of_mem ?_ List.pairwise_lt_range
    intro a b ha hb hab he
    rw [List.mem_range] at hb
    exact hno ⟨a, b, hab, by omega, he⟩
  have := le_of_subset_nodup hn (m := palette) (by
    intro x hx
    obtain ⟨i, _, rfl⟩ := List.mem_map.1 hx
    exact mem_palette (h i))
  rw [palette_length, List.length_map, List.length_range] at this
  omega

end Color
end Verif
