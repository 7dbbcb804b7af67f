import Mathlib.Algebra.Order.Field.Rat
import Mathlib.Algebra.Order.AbsoluteValue.Basic
import Verif.Model.Color
/-!
# What the colour functions are meant to compute

Exact formulas over the rational numbers.
-/

namespace Verif

/-- The number a `float` stands for (for infinities, a number of magnitude `2^128`, beyond every finite one). -/
def F32.real (x : F32) : ℚ := (x.val : ℚ) / (2 ^ 149 : Nat)

namespace ColorSpec

/-- Limit to `[0, 1]`. -/
def unitRange (q : ℚ) : ℚ := max 0 (min q 1)

/-- `c` is `e`, truncated to an integer, where up to 1/1024 may have been lost or gained before truncating. -/
def Truncates (c : UInt8) (e : ℚ) : Prop := (c.toNat : ℚ) ≤ e + 1 / 1024 ∧ e < c.toNat + 1 + 1 / 1024

/-- Linear interpolation. -/
def mix (a b t : ℚ) : ℚ := a * (1 - t) + b * t

/-- How much of a pure hue `h` (0 and 1 are red, 1/3 green, 2/3 blue) is in each channel. -/
def red (h : ℚ) : ℚ := unitRange (|6 * h - 3| - 1)
def green (h : ℚ) : ℚ := unitRange (2 - |6 * h - 2|)
def blue (h : ℚ) : ℚ := unitRange (2 - |6 * h - 4|)

/-- A channel of the colour with the given saturation and value, for a hue with the share `k` of that channel. -/
def hsv (k s v : ℚ) : ℚ := 255 * (v * (1 - s) + v * s * k)
/-- A channel of the colour with the given luminance and saturation, for a hue with the share `k` of that channel. -/
def hls (k l s : ℚ) : ℚ := 255 * (l + (1 - |2 * l - 1|) * s * (k - 1 / 2))

end ColorSpec
end Verif
