import Verif.Model.Hull
import Verif.Spec.Box
/-!
# Specification of convex hulls

Points are seen from above: only `x` and `y` count. All numbers are exact.
-/

namespace Verif

/-- Twice the area of the triangle `a`, `b`, `c` (in squared units of `2^-149`): positive if the way from `a` over `b` to `c` turns left, zero on a line. -/
def V3f.turn (a b c : V3f) : Int :=
  (b.coord .x - a.coord .x) * (c.coord .y - a.coord .y) - (b.coord .y - a.coord .y) * (c.coord .x - a.coord .x)

/-- What the C++ standard says of `std::sort`: for a strict weak ordering, the elements are permuted so that none is before an earlier one. -/
def Sorts (sort : (Nat → Nat → Bool) → List Nat → List Nat) : Prop :=
  ∀ (lt : Nat → Nat → Bool) (l : List Nat),
    (∀ a ∈ l, lt a a = false) → (∀ a ∈ l, ∀ b ∈ l, ∀ c ∈ l, lt a b = true → lt b c = true → lt a c = true) →
    (∀ a ∈ l, ∀ b ∈ l, ∀ c ∈ l, lt a b = false → lt b a = false → lt b c = false → lt c b = false → lt a c = false ∧ lt c a = false) →
    (sort lt l).Perm l ∧ (sort lt l).Pairwise fun a b => lt b a = false

namespace Hull

/-- The points are finite, and below `2^125` in magnitude, so that differences do not overflow. -/
structure Tidy (ps : List V3f) : Prop where
  finite : ∀ p ∈ ps, p.FiniteAt
  small : ∀ p ∈ ps, ∀ i, (p.coord i).natAbs ≤ 2 ^ 274

/-- The points lie on a raster with cells of `2^g` units, and are at most `D` cells apart in `x` and in `y`. -/
structure Raster (g D : Nat) (ps : List V3f) : Prop where
  x : ∀ p ∈ ps, (2 : Int) ^ g ∣ p.coord .x
  y : ∀ p ∈ ps, (2 : Int) ^ g ∣ p.coord .y
  nearX : ∀ p ∈ ps, ∀ q ∈ ps, (p.coord .x - q.coord .x).natAbs ≤ D * 2 ^ g
  nearY : ∀ p ∈ ps, ∀ q ∈ ps, (p.coord .y - q.coord .y).natAbs ≤ D * 2 ^ g

/-- `r` is the lowest point, the leftmost of the lowest. -/
def Lowest (ps : List V3f) (r : Nat) : Prop :=
  r < ps.length ∧ ∀ p ∈ ps, (pt ps r).coord .y < p.coord .y ∨ ((pt ps r).coord .y = p.coord .y ∧ (pt ps r).coord .x ≤ p.coord .x)

/-- Seen from the lowest point, all others are elsewhere, and no two are in the same direction. -/
structure Fanned (ps : List V3f) : Prop where
  apart : ∀ r, Lowest ps r → ∀ i < ps.length, i ≠ r → (pt ps i).coord .x ≠ (pt ps r).coord .x ∨ (pt ps i).coord .y ≠ (pt ps r).coord .y
  directions : ∀ r, Lowest ps r → ∀ i < ps.length, ∀ j < ps.length, i ≠ r → j ≠ r → i ≠ j → (pt ps r).turn (pt ps i) (pt ps j) ≠ 0

/-- `h` lists corners of the convex hull of the points, counter-clockwise: all points are to the left of the way from each to the next (and from the last to the
first), the way turns left at each corner, and a half plane `u x + v y ≤ w` that contains the corners contains all points. -/
structure IsHull (ps : List V3f) (h : List Nat) : Prop where
  nonempty : h ≠ []
  distinct : h.Nodup
  points : ∀ i ∈ h, i < ps.length
  left : ∀ k < h.length, ∀ p ∈ ps, 0 ≤ (pt ps (h.getD k 0)).turn (pt ps (h.getD ((k + 1) % h.length) 0)) p
  corners : ∀ k, k + 2 < h.length → 0 < (pt ps (h.getD k 0)).turn (pt ps (h.getD (k + 1) 0)) (pt ps (h.getD (k + 2) 0))
  contains : ∀ u v w : Int, (∀ i ∈ h, u * (pt ps i).coord .x + v * (pt ps i).coord .y ≤ w) → ∀ p ∈ ps, u * p.coord .x + v * p.coord .y ≤ w

end Hull
end Verif
