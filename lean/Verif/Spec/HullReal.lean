import Mathlib.Analysis.Real.Sqrt
import Verif.Spec.Hull
/-! # Specification of convex hulls: directions -/

namespace Verif

/-- The cosine of the angle between the x-axis and the way from `r` to `p`, seen from above. -/
noncomputable def V3f.cosine (r p : V3f) : ℝ :=
  let dx : ℝ := (p.coord .x : ℝ) - r.coord .x
  let dy : ℝ := (p.coord .y : ℝ) - r.coord .y
  dx / Real.sqrt (dx * dx + dy * dy)

/-- The value of a finite float as a real number. -/
noncomputable def F32.re (x : F32) : ℝ := (x.val : ℝ) / 2 ^ 149

namespace Hull

/-- Seen from the lowest point, all others are elsewhere, and in directions whose cosines differ by at least `2^-20`. -/
structure Separated (ps : List V3f) : Prop where
  apart : ∀ r, Lowest ps r → ∀ i < ps.length, i ≠ r → (pt ps i).coord .x ≠ (pt ps r).coord .x ∨ (pt ps i).coord .y ≠ (pt ps r).coord .y
  directions : ∀ r, Lowest ps r → ∀ i < ps.length, ∀ j < ps.length, i ≠ r → j ≠ r → i ≠ j → 1 / 2 ^ 20 ≤ |(pt ps r).cosine (pt ps i) - (pt ps r).cosine (pt ps j)|

/-- `(cx, cy)` is the direction from corner `k` to the next. -/
structure EdgeAlong (ps : List V3f) (h : List Nat) (k : Nat) (cx cy : ℝ) : Prop where
  unit : cx * cx + cy * cy = 1
  along : ∃ L : ℝ, 0 < L ∧ (pt ps (h.getD ((k + 1) % h.length) 0)).x.re - (pt ps (h.getD k 0)).x.re = L * cx ∧
    (pt ps (h.getD ((k + 1) % h.length) 0)).y.re - (pt ps (h.getD k 0)).y.re = L * cy

/-- The points extend over `e` in direction `(cx, cy)`, seen from above. -/
def Extent (ps : List V3f) (cx cy e : ℝ) : Prop :=
  (∀ p ∈ ps, ∀ q ∈ ps, cx * (p.x.re - q.x.re) + cy * (p.y.re - q.y.re) ≤ e) ∧ ∃ p ∈ ps, ∃ q ∈ ps, cx * (p.x.re - q.x.re) + cy * (p.y.re - q.y.re) = e

/-- What is assumed of the trigonometric functions of the C library: the sine and cosine of the angle of a vector of length about 1 (up to `2^-20`) are its coordinates,
up to `2^-20` (8 to 16 units in the last place of a number near 1). -/
structure Trig.Accurate (t : Trig) : Prop where
  cos : ∀ x y : F32, F32.finite x = true → F32.finite y = true → |x.re * x.re + y.re * y.re - 1| ≤ 1 / 2 ^ 20 →
    F32.finite (t.cos (t.atan2 y x)) = true ∧ |(t.cos (t.atan2 y x)).re - x.re| ≤ 1 / 2 ^ 20
  sin : ∀ x y : F32, F32.finite x = true → F32.finite y = true → |x.re * x.re + y.re * y.re - 1| ≤ 1 / 2 ^ 20 →
    F32.finite (t.sin (t.atan2 y x)) = true ∧ |(t.sin (t.atan2 y x)).re - y.re| ≤ 1 / 2 ^ 20

end Hull
end Verif
