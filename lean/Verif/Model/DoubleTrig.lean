import Verif.Model.Double
import Mathlib.Algebra.Order.Round
/-
The trigonometric functions of degrees (src/diffpy/mathutils.ipp:48-92) in rounded arithmetic, with the `fl` of Model/Double.lean.  The `cos` and
`acos` of the C library are arbitrary functions `c`, `a`; `fmod` and `remainder` are exact in IEEE 754.  NaN and infinities are not modelled.
-/
namespace Verif.Double

/-- The macro `M_PI`, the double 0x1.921fb54442d18p+1 (mathutils.ipp:66, 91). -/
def piF : ℚ := 884279719003555 / 2 ^ 48

/-- C `fmod(x, y)` for `x ≥ 0`, `y > 0` (mathutils.ipp:51). -/
def fmodF (x y : ℚ) : ℚ := x - y * ⌊x / y⌋

/-- C `remainder(x, y)`: ties to even (mathutils.ipp:52, 80). -/
def remainderF (x y : ℚ) : ℚ := x - y * rne (x / y)

/-- `cosd` (mathutils.ipp:48-67); the quotient and the product are rounded. -/
def cosdF (fl c : ℚ → ℚ) (x : ℚ) : ℚ :=
  let xp := fmodF |x| 360
  let generic := c (fl (fl (x / 180) * piF))
  if remainderF xp 60 = 0 ∨ remainderF xp 90 = 0 then
    let k := round xp
    if k = 0 then 1
    else if k = 60 ∨ k = 300 then 1 / 2
    else if k = 90 ∨ k = 270 then 0
    else if k = 120 ∨ k = 240 then -1 / 2
    else if k = 180 then -1
    else generic
  else generic

/-- `sind` (mathutils.ipp:70-74); the difference is rounded. -/
def sindF (fl c : ℚ → ℚ) (x : ℚ) : ℚ := cosdF fl c (fl (90 - x))

/-- `acosd` (mathutils.ipp:77-92); `x/0.5` is exact. -/
def acosdF (fl a : ℚ → ℚ) (x : ℚ) : ℚ :=
  let generic := fl (fl (a x / piF) * 180)
  if remainderF x (1 / 2) = 0 then
    let k := round (x / (1 / 2))
    if k = 0 then 90
    else if k = 1 then 60
    else if k = -1 then 120
    else if k = 2 then 0
    else if k = -2 then 180
    else generic
  else generic

end Verif.Double
