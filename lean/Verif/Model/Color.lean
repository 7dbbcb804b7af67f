import Verif.Model.Box
/-!
# Colours: src/color.cpp, include/spark_dsg/color.h

Floats are bit patterns with IEEE arithmetic (Model/Float32.lean). `std::fmod(hue_prime, 2)` promotes to `double`; the few `double`
operations behind it are modelled on values (no overflow is possible there). `Color::random` and the hue of `rainbowId` (`std::log2`, `std::exp2`)
are not modelled. Comparison and hash are in Model/Text.lean.
-/

namespace Verif

namespace F32
def zero : F32 := 0
/-- An unsigned integer converted to `float` (to nearest, ties to even). -/
def ofNat (n : Nat) : F32 := pack false (roundMag (n * 2 ^ 149) 1)
/-- Conversion of a `float` to an unsigned integer type of `bits` bits: truncation towards zero; undefined if the result does not
fit, for infinities and for NaN. -/
def toUnsigned (bits : Nat) (x : F32) : Res Nat :=
  if x.isNan || x.isInf then .ub
  else if x.val ≤ -(2 ^ 149 : Int) then .ub
  else if (2 ^ bits * 2 ^ 149 : Int) ≤ x.val then .ub
  else .ok (x.val / 2 ^ 149).toNat
/-- `static_cast<uint8_t>(x)` -/
def toU8 (x : F32) : Res UInt8 := do
  let n ← x.toUnsigned 8
  return UInt8.ofNat n
/-- `std::clamp(x, lo, hi)`; a NaN passes through. -/
def clamp (x lo hi : F32) : F32 := if x.lt lo then lo else if hi.lt x then hi else x
/-- `std::clamp(x, 0.0f, 1.0f)` -/
def clamp01 (x : F32) : F32 := x.clamp zero one
def six : F32 := 0x40C00000
def ofHalf : F32 := 0x3F000000
def c255 : F32 := 0x437F0000
end F32

namespace Dbl
/-- The non-negative `double` nearest to `p / q` units of `2^-1074`, as a number of units (ties to even, no overflow). -/
def near (p q : Nat) : Nat := F32.nearest p (q * 2 ^ ((p / q).log2 - 52)) * 2 ^ ((p / q).log2 - 52)
/-- `1.0` -/
def one : Nat := 2 ^ 1074
/-- A non-negative `float`, widened. -/
def ofMag (b : Nat) : Nat := F32.magVal b * 2 ^ 925
/-- color.cpp:43 `1.0f - std::abs(std::fmod(hue_prime, 2) - 1.0f)`, for `hue_prime >= 0`; `fmod` is exact. -/
def tent (h : Nat) : Nat :=
  let f := h % (2 * one)
  let t := near (if f ≤ one then one - f else f - one) 1
  near (one - t) 1
end Dbl

namespace Color

/-- color.h:88-98 -/
def black : Color := ⟨0, 0, 0, 255⟩

/-- color.cpp:33-36: one channel of `blend`. -/
def blendChannel (r o : UInt8) (w : F32) : Res UInt8 :=
  (((F32.ofNat r.toNat).mul (F32.one.sub w)).add ((F32.ofNat o.toNat).mul w)).toU8
/-- color.cpp:31-37 `blend` -/
def blend (x y : Color) (weight : F32) : Res Color := do
  let w := weight.clamp01
  let r ← blendChannel x.r y.r w
  let g ← blendChannel x.g y.g w
  let b ← blendChannel x.b y.b w
  let a ← blendChannel x.a y.a w
  return ⟨r, g, b, a⟩
/-- color.cpp:29 `merge` -/
def merge (x y : Color) (weight : F32) : Res Color := x.blend y weight

/-- color.cpp:41-56 `rgbFromChromaHue`. All callers clamp, so `hue >= 0` and `chroma >= 0` unless NaN. -/
def rgbFromChromaHue (chroma hue : F32) : F32 × F32 × F32 :=
  let hp := hue.mul F32.six
  let x := if chroma.isNan || hp.isNan then F32.nan
    else F32.pack false (F32.roundMag (Dbl.near (Dbl.ofMag chroma.magBits * Dbl.tent (Dbl.ofMag hp.magBits)) Dbl.one) (2 ^ 925))
  if hp.lt (F32.ofNat 1) then (chroma, x, F32.zero)
  else if hp.lt (F32.ofNat 2) then (x, chroma, F32.zero)
  else if hp.lt (F32.ofNat 3) then (F32.zero, chroma, x)
  else if hp.lt (F32.ofNat 4) then (F32.zero, x, chroma)
  else if hp.lt (F32.ofNat 5) then (x, F32.zero, chroma)
  else (chroma, F32.zero, x)

/-- color.cpp:65-67, 77-79: `static_cast<uint8_t>((c + m) * 255)` for the three channels. -/
def fromParts (p : F32 × F32 × F32) (m : F32) : Res Color := do
  let r ← ((p.1.add m).mul F32.c255).toU8
  let g ← ((p.2.1.add m).mul F32.c255).toU8
  let b ← ((p.2.2.add m).mul F32.c255).toU8
  return ⟨r, g, b, 255⟩

/-- color.cpp:58-68 `fromHSV` -/
def fromHSV (hue saturation value : F32) : Res Color :=
  let hue := hue.clamp01
  let saturation := saturation.clamp01
  let value := value.clamp01
  let chroma := value.mul saturation
  fromParts (rgbFromChromaHue chroma hue) (value.sub chroma)

/-- color.cpp:70-80 `fromHLS` -/
def fromHLS (hue luminance saturation : F32) : Res Color :=
  let hue := hue.clamp01
  let luminance := luminance.clamp01
  let saturation := saturation.clamp01
  let chroma := (F32.one.sub ((F32.two.mul luminance).sub F32.one).abs).mul saturation
  fromParts (rgbFromChromaHue chroma hue) (luminance.sub (chroma.div F32.two))

/-- color.cpp:82-87 `gray` -/
def gray (value : F32) : Res Color := do
  let c ← (value.clamp01.mul F32.c255).toU8
  return ⟨c, c, c, 255⟩

/-- color.cpp:89-100 `quality` -/
def quality (value : F32) : Res Color :=
  let value := value.clamp01
  if F32.ofHalf.lt value then do
    let r ← (((F32.one.sub value).mul F32.two).mul F32.c255).toU8
    return ⟨r, 255, 0, 255⟩
  else do
    let g ← ((value.mul F32.two).mul F32.c255).toU8
    return ⟨255, g, 0, 255⟩

/-- color.cpp:102-114 `spectrum`; the list has fewer than `2^64` elements. -/
def spectrum (value : F32) (colors : List Color) : Res Color :=
  match colors with
  | [] => .ok black
  | _ :: _ => do
    let value := value.clamp01
    let steps := colors.length - 1
    let v := value.mul (F32.ofNat steps)
    let index ← v.toUnsigned 64
    if steps ≤ index then Res.at? colors[steps]?
    else do
      let weight := v.sub (F32.ofNat index)
      let x ← Res.at? colors[index]?
      let y ← Res.at? colors[index + 1]?
      x.blend y weight

/-- color.cpp:145-146 `ironbow_colors_` -/
def ironbowColors : List Color := [⟨0, 0, 0, 255⟩, ⟨145, 20, 145, 255⟩, ⟨255, 138, 0, 255⟩, ⟨255, 230, 40, 255⟩, ⟨255, 255, 255, 255⟩]
/-- color.cpp:116 `ironbow` -/
def ironbow (value : F32) : Res Color := spectrum value ironbowColors
/-- color.cpp:118-120 `rainbow` -/
def rainbow (value : F32) : Res Color := fromHLS value.clamp01 F32.ofHalf F32.one
/-- color.cpp:141-143 `rainbowId`, with the hue of an id (color.cpp:126-139) as a parameter. -/
def rainbowId (hueOf : Nat → F32) (id : Nat) : Res Color := rainbow (hueOf id)

end Color
end Verif
