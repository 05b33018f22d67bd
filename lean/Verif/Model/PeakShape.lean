import Verif.Model.R3
import Verif.Model.PDFGrid
import Mathlib.Analysis.SpecialFunctions.Log.Basic
import Mathlib.Analysis.SpecialFunctions.Trigonometric.Basic
import Mathlib.MeasureTheory.Integral.IntervalIntegral.Basic
import Mathlib.Analysis.SpecialFunctions.Gaussian.GaussianIntegral
/-!
Model of the peak profiles (src/diffpy/srreal/PeakProfile.cpp, GaussianProfile.cpp,
CroppedGaussianProfile.cpp) and of the peak width models (DebyeWallerPeakWidth.cpp, JeongPeakWidth.cpp,
ConstantPeakWidth.cpp) with the displacement functions of StructureAdapter.cpp.  Numbers are reals;
rounding is not modelled.  A NaN is the result `none`.  A ticker is the number of its clicks.
-/
namespace Verif.Peak
open Verif.R3

/-- `DOUBLE_EPS` (mathutils.hpp:32-33), 2^-52. -/
noncomputable def dblEps : ℝ := 1 / 2 ^ 52

/-- `GAUSS_SIGMA_TO_FWHM` (mathutils.hpp:35). -/
noncomputable def sigmaToFwhm : ℝ := 2 * Real.sqrt (2 * Real.log 2)

/-- The state of a `GaussianProfile`: `mprecision`, `mticker` (PeakProfile.hpp) and `mhalfboundrel`
(GaussianProfile.hpp). -/
structure Gauss where
  precision : ℝ
  clicks : Nat
  half : ℝ

/-- `PeakProfile::setPrecision` (PeakProfile.cpp:44-48). -/
noncomputable def Gauss.basePrecision (g : Gauss) (eps : ℝ) : Gauss :=
  { g with clicks := if g.precision ≠ eps then g.clicks + 1 else g.clicks, precision := eps }

/-- `GaussianProfile::setPrecision` (GaussianProfile.cpp:86-93). -/
noncomputable def Gauss.setPrecision (g : Gauss) (eps : ℝ) : Gauss :=
  let eps1 := max eps dblEps
  let g1 := g.basePrecision eps1
  if eps1 < 1 then { g1 with half := Real.sqrt (-Real.log eps1 / (4 * Real.log 2)) } else { g1 with half := 0 }

/-- `GaussianProfile()` (GaussianProfile.cpp:35-39) after `PeakProfile()` (PeakProfile.cpp:36-40). -/
noncomputable def Gauss.new : Gauss := Gauss.setPrecision ⟨0, 0, 0⟩ dblEps

/-- `GaussianProfile::operator()` (GaussianProfile.cpp:64-70). -/
noncomputable def gaussY (x fwhm : ℝ) : ℝ :=
  if fwhm ≤ 0 then 0
  else
    let xrel := x / fwhm
    2 * Real.sqrt (Real.log 2 / Real.pi) / fwhm * Real.exp (-4 * Real.log 2 * xrel * xrel)

/-- `GaussianProfile::xboundhi` (GaussianProfile.cpp:79-83). -/
noncomputable def Gauss.hi (g : Gauss) (fwhm : ℝ) : ℝ := if fwhm ≤ 0 then 0 else g.half * fwhm

/-- `GaussianProfile::xboundlo` (GaussianProfile.cpp:73-76). -/
noncomputable def Gauss.lo (g : Gauss) (fwhm : ℝ) : ℝ := -1 * g.hi fwhm

/-- `gsl_sf_erf`, by its mathematical definition. -/
noncomputable def erf (z : ℝ) : ℝ := 2 / Real.sqrt Real.pi * ∫ t in (0 : ℝ)..z, Real.exp (-t ^ 2)

/-- The state of a `CroppedGaussianProfile`: that of its base and `mscale`. -/
structure Cropped where
  g : Gauss
  scale : ℝ

/-- `CroppedGaussianProfile::setPrecision` (CroppedGaussianProfile.cpp:74-84). -/
noncomputable def Cropped.setPrecision (c : Cropped) (eps : ℝ) : Cropped :=
  let g := c.g.setPrecision eps
  let eps1 := g.precision
  if eps1 < 1 then
    let area := erf (Real.sqrt (-Real.log eps1))
    ⟨g, 1 / area⟩
  else ⟨g, 1⟩

/-- `CroppedGaussianProfile()` (CroppedGaussianProfile.cpp:35-39). -/
noncomputable def Cropped.new : Cropped := Cropped.setPrecision ⟨Gauss.new, 0⟩ Gauss.new.precision

/-- `CroppedGaussianProfile::operator()` (CroppedGaussianProfile.cpp:64-71).  For `fwhm` = 0 the ratio is
NaN (then the result is NaN) at `x` = 0 and infinite (then the result is 0) elsewhere. -/
noncomputable def Cropped.y (c : Cropped) (x fwhm : ℝ) : Option ℝ :=
  if fwhm = 0 then (if x = 0 then none else some 0)
  else
    let xrel := x / fwhm
    some (if |xrel| ≥ c.g.half then 0
      else 2 * Real.sqrt (Real.log 2 / Real.pi) / fwhm * c.scale * Real.exp (-4 * Real.log 2 * xrel * xrel))

/-! ### Displacements and widths -/

/-- A site as the width models see it: `siteCartesianUij` and `siteAnisotropy`. -/
structure Site where
  U : M3
  aniso : Bool

/-- `meanSquareDisplacement` (StructureAdapter.cpp:82-108), without its asserts. -/
noncomputable def meanSquareDisplacement (U : M3) (s : V3) (aniso : Bool) : ℝ :=
  if aniso then
    let n := V3.norm s
    let sn : V3 := ⟨s.x / n, s.y / n, s.z / n⟩
    U.r0.x * sn.x * sn.x + U.r1.y * sn.y * sn.y + U.r2.z * sn.z * sn.z +
      2 * U.r0.y * sn.x * sn.y + 2 * U.r0.z * sn.x * sn.z + 2 * U.r1.z * sn.y * sn.z
  else U.r0.x

/-- `BaseBondGenerator::msd` (BaseBondGenerator.cpp:198-208) for the bond vector `s`. -/
noncomputable def msd (a b : Site) (s : V3) : ℝ :=
  meanSquareDisplacement a.U s a.aniso + meanSquareDisplacement b.U s b.aniso

/-- `maxUii` (StructureAdapter.cpp:111-124) for a structure that is not null. -/
noncomputable def maxUii (sites : List Site) : ℝ :=
  sites.foldl (fun rv s =>
    [s.U.r0.x, s.U.r1.y, s.U.r2.z].foldl (fun rv u => if u > rv then u else rv) rv) 0

/-- `DebyeWallerPeakWidth::calculate` (DebyeWallerPeakWidth.cpp:53-59) for the value of `bnds.msd()`. -/
noncomputable def dwCalculate (msdval : ℝ) : ℝ := if msdval < 0 then 0 else sigmaToFwhm * Real.sqrt msdval

/-- `DebyeWallerPeakWidth::maxWidth` (DebyeWallerPeakWidth.cpp:62-69). -/
noncomputable def dwMaxWidth (sites : List Site) : ℝ :=
  let maxmsd := 2 * maxUii sites
  if maxmsd ≤ 0 then 0 else sigmaToFwhm * Real.sqrt maxmsd

/-- The parameters of `JeongPeakWidth`. -/
structure Jeong where
  delta1 : ℝ
  delta2 : ℝ
  qbroad : ℝ
  qbroadSep : ℝ

/-- `JeongPeakWidth::msdSharpeningRatio` (JeongPeakWidth.cpp:145-153). -/
noncomputable def Jeong.ratio (j : Jeong) (r : ℝ) : ℝ :=
  if r < dblEps then 0 else 1 - j.delta1 / r - j.delta2 / r ^ 2 + (j.qbroad * r) ^ 2

/-- `JeongPeakWidth::calculate` (JeongPeakWidth.cpp:68-77) for a bond of length `r`. -/
noncomputable def Jeong.calculate (j : Jeong) (r msdval : ℝ) : ℝ :=
  let corr := j.ratio r
  if corr ≤ 0 then 0 else Real.sqrt corr * dwCalculate msdval + (j.qbroadSep * r) ^ 2

/-- `JeongPeakWidth::maxWidth` (JeongPeakWidth.cpp:80-90). -/
noncomputable def Jeong.maxWidth (j : Jeong) (sites : List Site) (rmin rmax : ℝ) : ℝ :=
  let maxwidth0 := dwMaxWidth sites
  let maxmsdsharp := max (j.ratio rmin) (j.ratio rmax)
  maxwidth0 * Real.sqrt (max 1 maxmsdsharp) + (j.qbroadSep * rmax) ^ 2

/-- The state of a `ConstantPeakWidth`: `mwidth` and its ticker. -/
structure ConstW where
  width : ℝ
  clicks : Nat

/-- `ConstantPeakWidth::setWidth` (ConstantPeakWidth.cpp:118-122). -/
noncomputable def ConstW.setWidth (c : ConstW) (w : ℝ) : ConstW :=
  ⟨w, if c.width ≠ w then c.clicks + 1 else c.clicks⟩

/-- `UtoB` (ConstantPeakWidth.cpp:32). -/
noncomputable def UtoB : ℝ := 8 * Real.pi * Real.pi

/-- `getuisowidth` (ConstantPeakWidth.cpp:35-40). -/
noncomputable def ConstW.getUiso (c : ConstW) : ℝ :=
  let rmsd := c.width / sigmaToFwhm
  let pm : ℝ := if rmsd ≥ 0 then 1 else -1
  pm * 0.5 * rmsd * rmsd

/-- `setuisowidth` (ConstantPeakWidth.cpp:42-48). -/
noncomputable def ConstW.setUiso (c : ConstW) (uiso : ℝ) : ConstW :=
  let pm : ℝ := if uiso ≥ 0 then 1 else -1
  let uisoplus := pm * uiso
  let fwhm := pm * sigmaToFwhm * Real.sqrt (2.0 * uisoplus)
  c.setWidth fwhm

/-- `getbisowidth` (ConstantPeakWidth.cpp:51-54). -/
noncomputable def ConstW.getBiso (c : ConstW) : ℝ := UtoB * c.getUiso

/-- `setbisowidth` (ConstantPeakWidth.cpp:56-59). -/
noncomputable def ConstW.setBiso (c : ConstW) (biso : ℝ) : ConstW := c.setUiso (biso / UtoB)

/-- `ConstantPeakWidth::calculate` (ConstantPeakWidth.cpp:98-101). -/
def ConstW.calculate (c : ConstW) (_r _msdval : ℝ) : ℝ := c.width

/-- `ConstantPeakWidth::maxWidth` (ConstantPeakWidth.cpp:104-108). -/
def ConstW.maxWidth (c : ConstW) (_sites : List Site) (_rmin _rmax : ℝ) : ℝ := c.width

/-- `PDFCalculator::extFromPeakTails` (PDFCalculator.cpp:593-604) for the value of `pwm.maxWidth` and a
profile with bounds `lo`, `hi`. -/
noncomputable def extFromPeakTails (lo hi : ℝ → ℝ) (maxfwhm : ℝ) : ℝ := max |lo maxfwhm| |hi maxfwhm|

/-- A Gaussian profile as the grid model of the PDF calculator sees it. -/
noncomputable def Gauss.prof (g : Gauss) : PDFGrid.Prof ℝ := ⟨g.lo, g.hi, gaussY⟩

/-- A cropped profile as the grid model of the PDF calculator sees it (NaN replaced by 0, see `Cropped.y`;
the theorems using it exclude the NaN case). -/
noncomputable def Cropped.prof (c : Cropped) : PDFGrid.Prof ℝ := ⟨c.g.lo, c.g.hi, fun x w => (c.y x w).getD 0⟩

end Verif.Peak
