import Verif.Model.PDFGrid
import Mathlib.Data.Int.Log
import Mathlib.Data.Rat.Floor
/-
The steps of the r and Q grids in rounded arithmetic (src/diffpy/srreal/PDFUtils.ipp).  `fl` rounds the exact result of one
arithmetic operation; `fl64` is the rounding of C++ `double` (IEEE 754 binary64, round to nearest, ties to even) without overflow
and underflow.  Conversions of `int` to `double` are exact.
-/
namespace Verif.Double
open Verif.PDFGrid

section
variable {K : Type} [Field K] [LinearOrder K] [FloorRing K]

/-- `pdfutils_rminSteps(rmin, rstep)` (PDFUtils.ipp:87-94) with `eps_eq` (mathutils.ipp:107-111): the quotient, the product and
the difference are rounded. -/
def rminStepsF (fl : K → K) (rmin dr : K) : ℤ :=
  let rv := ⌈fl (rmin / dr)⌉
  if |fl (rmin - fl (((rv - 1 : ℤ) : K) * dr))| ≤ eps then rv - 1 else rv

/-- `pdfutils_rmaxSteps(rmax, rstep)` (PDFUtils.ipp:107-112). -/
def rmaxStepsF (fl : K → K) (rmax dr : K) : ℤ := ⌈fl (rmax / dr)⌉

/-- `pdfutils_getRgrid` (PDFUtils.ipp:71-84). -/
def rgridF (fl : K → K) (rmin rmax dr : K) : List K :=
  (intRange (rminStepsF fl rmin dr) (rmaxStepsF fl rmax dr)).map (fun n : ℤ => fl ((n : K) * dr))

end

/-- Rounding of a rational to the nearest integer, ties to even. -/
def rne (y : ℚ) : ℤ :=
  if y - ⌊y⌋ < 1 / 2 then ⌊y⌋
  else if 1 / 2 < y - ⌊y⌋ then ⌊y⌋ + 1
  else if ⌊y⌋ % 2 = 0 then ⌊y⌋ else ⌊y⌋ + 1

/-- The weight of the last of the 53 bits of `x`. -/
def ulp (x : ℚ) : ℚ := 2 ^ (Int.log 2 |x| - 52)

/-- Rounding to `double` (IEEE 754 binary64 as used by the C++ compilers this code is built with). -/
def fl64 (x : ℚ) : ℚ := rne (x / ulp x) * ulp x

end Verif.Double
